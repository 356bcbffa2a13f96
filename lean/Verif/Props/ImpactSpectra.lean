import Verif.Props.Impact

/-!
# C19, bin by bin: where each impact appears in each of the histograms
-/

set_option linter.unusedSectionVars false

namespace PyECLOUD

variable {K : Type} [Field K] [LinearOrder K] [FloorRing K] [IsStrictOrderedRing K]

theorem depositIf_getD (flag : Bool) (dx : K) (h h' : List K) (ps : List (K × K))
    (hok : depositIf flag 0 dx h ps = .ok h') (k : ℕ) (hk : k < h.length) :
    h'.getD k 0 = h.getD k 0 + (if flag then binned 0 dx h.length ps k else 0) := by
  unfold depositIf at hok
  cases flag with
  | true =>
    rw [if_pos rfl] at hok
    rw [if_pos rfl]
    exact computeHist_getD _ _ _ _ _ hok k hk
  | false =>
    rw [if_neg (by simp)] at hok
    cases hok
    simp

/-- the impacts on segment `j` -/
def onSeg (j : ℕ) (imps : List (Impact K)) : List (Impact K) := imps.filter (fun i => decide (i.seg = (j : ℤ)))

/-- values and weights of the energy spectra -/
def enData (c : ImpCfg K) (imps : List (Impact K)) : List (K × K) := imps.map (fun i => (min i.en c.enMax, i.nel))

theorem enData_eq (c : ImpCfg K) (imps : List (Impact K)) :
    imps.map (fun i => (if c.enMax < i.en then c.enMax else i.en, i.nel)) = enData c imps := by
  unfold enData
  apply List.map_congr_left
  intro i _
  by_cases h : c.enMax < i.en
  · rw [if_pos h, min_eq_right h.le]
  · rw [if_neg h, min_eq_left (not_lt.1 h)]

theorem segEnHists_spec (c : ImpCfg K) (imps : List (Impact K)) : ∀ (k : ℕ) (ls ls' : List (List K)),
    segEnHists c.dEn c.enMax imps k ls = .ok ls' → ls'.length = ls.length ∧
    ∀ (j : ℕ) (l l' : List K), ls[j]? = some l → ls'[j]? = some l' → l'.length = l.length ∧
      ∀ b < l.length, l'.getD b 0 = l.getD b 0 + binned 0 c.dEn l.length (enData c (onSeg (k + j) imps)) b
  | k, [], ls', h => by
    cases h
    exact ⟨rfl, fun j l l' hj => by simp at hj⟩
  | k, l0 :: ls, ls', h => by
    unfold segEnHists at h
    obtain ⟨l0', e1, h⟩ := bind_ok h
    obtain ⟨r, e2, h⟩ := bind_ok h
    cases h
    obtain ⟨i1, i2⟩ := segEnHists_spec c imps (k + 1) ls r e2
    refine ⟨by simp [i1], fun j l l' hj hj' => ?_⟩
    cases j with
    | zero =>
      simp only [List.getElem?_cons_zero, Option.some.injEq] at hj hj'
      subst hj
      subst hj'
      have hlen : l0'.length = l0.length := by
        unfold depositIf deposit at e1
        split at e1
        · exact computeHist_length _ _ _ _ _ e1
        · cases e1; rfl
      refine ⟨hlen, fun b hb => ?_⟩
      rw [depositIf_getD _ _ _ _ _ e1 b hb, enData_eq]
      congr 1
      show (if decide (0 < (onSeg k imps).length) = true then _ else _) = _
      rw [Nat.add_zero]
      by_cases h0 : 0 < (onSeg k imps).length
      · rw [if_pos (by simpa using h0)]; rfl
      · rw [if_neg (by simpa using h0)]
        have : onSeg k imps = [] := List.length_eq_zero_iff.1 (by omega)
        rw [this]; rfl
    | succ j =>
      simp only [List.getElem?_cons_succ] at hj hj'
      have := i2 j l l' hj hj'
      rw [show k + 1 + j = k + (j + 1) by omega] at this
      exact this

theorem lifeData_eq (sq : K → K) (ke tt : K) : ∀ (l : List (Particle K)) (imps : List (Impact K)),
    List.Forall₂ (ImpactOf sq ke) l imps → lifeData tt (l.map (fun p => p .tl)) imps =
      (l.filter (fun p => decide (0 < p .tl))).map (fun p => (tt - p .tl, p .nel))
  | _, _, .nil => rfl
  | p :: l, i :: imps, .cons h hs => by
    have ih := lifeData_eq sq ke tt l imps hs
    unfold lifeData at ih ⊢
    rw [List.map_cons, List.zip_cons_cons, List.filter_cons, List.filter_cons]
    by_cases h0 : 0 < p .tl
    · rw [if_pos (by simpa using h0), if_pos (by simpa using h0), List.map_cons, List.map_cons, ih, h.1]
    · rw [if_neg (by simpa using h0), if_neg (by simpa using h0), ih]

theorem emit_energ_getD (sq : K → K) (c : ImpCfg K) (h1 h2 h' : ImpHist K) (rep new : List (Emit K))
    (hr : emitHists sq c rep h1 = .ok h2) (hn : (new = [] ∧ h' = h2) ∨ (new ≠ [] ∧ emitHists sq c new h2 = .ok h'))
    (k : ℕ) (hk : k < h1.energ.length) :
    h'.energ.getD k 0 = h1.energ.getD k 0 -
      binned c.biasX c.dxHist h1.energ.length ((rep ++ new).map (fun e => (e.x, e.nel * e.energy sq c.ke))) k := by
  have key : ∀ (n : ℕ) (es : List (Emit K)), ((es.map (fun e => (e.x, -e.nel * e.energy sq c.ke))).map
      (fun p : K × K => p.2 * cicWeight n ((p.1 - c.biasX) / c.dxHist) k)).sum =
      -binned c.biasX c.dxHist n (es.map (fun e => (e.x, e.nel * e.energy sq c.ke))) k := by
    intro n es
    unfold binned
    induction es with
    | nil => simp
    | cons e es ih =>
      simp only [List.map_cons, List.sum_cons]
      rw [ih]; ring
  have r := emitHists_run sq c rep h1 h2 hr
  have s1 := computeHist_getD _ _ _ _ _ r.energ k hk
  have hl := computeHist_length _ _ _ _ _ r.energ
  rw [key] at s1
  rcases hn with ⟨rfl, rfl⟩ | ⟨-, hn⟩
  · rw [s1, List.append_nil]; ring
  · have q := emitHists_run sq c new h2 h' hn
    have s2 := computeHist_getD _ _ _ _ _ q.energ k (by rw [hl]; exact hk)
    rw [key, hl] at s2
    rw [s2, s1]
    unfold binned
    rw [List.map_append, List.map_append, List.sum_append]
    ring

theorem spectra_aux (sq : K → K) (c : ImpCfg K) (ch : Chamber K)
    (sey : K → List (Impact K) → Except PyErr (SeyOut K)) (s : MPs K) (hwf : s.WF) (hroom : s.nmp < s.cap)
    (old : List (K × K × K)) (tt : K) (h : ImpHist K) (s' : MPs K) (h' : ImpHist K) (n : ImpCount K)
    (hsey : ∀ imps out, sey s.split imps = .ok out → SeyOk imps out)
    (hok : impactStep sq c ch sey s old tt h = .ok (s', h', n)) :
    ∃ (imps : List (Impact K)) (ems : List (Emit K)),
      List.Forall₂ (ImpactOf sq c.ke) (s.live.filter (fun p => ch.outside (p .x) (p .y))) imps ∧
      (∀ i ∈ imps, i.cth = |(i.vx * i.nx + i.vy * i.ny) / sq (i.vx * i.vx + i.vy * i.vy + i.vz * i.vz)|) ∧
      (∀ e ∈ ems, e.nel = 0 ∨ ∃ i ∈ imps, e.x = i.x ∧ e.y = i.y ∧ e.z = i.z ∧ e.seg = i.seg) ∧
      (ems.map (fun e => e.nel)).sum = n.nelEmit ∧
      (ems.map (fun e => e.energy sq c.ke * e.nel)).sum = n.enEmit ∧
      (∀ k < h.energ.length, h'.energ.getD k 0 = h.energ.getD k 0 +
        binned c.biasX c.dxHist h.energ.length (imps.map (fun i => (i.x, i.nel * i.en))) k -
        binned c.biasX c.dxHist h.energ.length (ems.map (fun e => (e.x, e.nel * e.energy sq c.ke))) k) ∧
      (∀ k < h.enLine.length, h'.enLine.getD k 0 = h.enLine.getD k 0 + binned 0 c.dEn h.enLine.length (enData c imps) k) ∧
      (∀ k < h.cos.length, h'.cos.getD k 0 = h.cos.getD k 0 +
        (if c.flagCos then binned 0 c.cosW h.cos.length (imps.map (fun i => (i.cth, i.nel))) k else 0)) ∧
      (∀ k < h.life.length, h'.life.getD k 0 = h.life.getD k 0 +
        (if s.lifetime then binned 0 c.dtLife h.life.length
          ((s.live.filter (fun p => ch.outside (p .x) (p .y) && decide (0 < p .tl))).map (fun p => (tt - p .tl, p .nel))) k
        else 0)) ∧
      (∀ k < h.segEn.length, h'.segEn.getD k 0 = h.segEn.getD k 0 +
        (if c.flagSeg then ((onSeg k imps).map (fun i => i.nel * i.en)).sum -
          ((ems.filter (fun e => decide (e.seg = (k : ℤ)))).map (fun e => e.nel * e.energy sq c.ke)).sum else 0)) ∧
      h'.segEnLines.length = h.segEnLines.length ∧
      (∀ (j : ℕ) (l l' : List K), h.segEnLines[j]? = some l → h'.segEnLines[j]? = some l' → l'.length = l.length ∧
        ∀ b < l.length, l'.getD b 0 = l.getD b 0 +
          (if c.flagSeg && c.flagEnSeg then binned 0 c.dEn l.length (enData c (onSeg j imps)) b else 0)) := by
  have hl : ∀ imps out, sey s.split imps = .ok out → out.replace.length = imps.length :=
    fun imps out ho => (hsey imps out ho).replace.length_eq.symm
  have hfil : s.live.filter (fun p => ch.outside (p .x) (p .y) && decide (0 < p .tl)) =
      (s.live.filter ch.out).filter (fun p => decide (0 < p .tl)) := by
    rw [List.filter_filter]
    apply List.filter_congr
    intro p _
    rw [Bool.and_comm]; rfl
  rcases impactStep_cases sq c ch sey s hwf hroom old tt h s' h' n hl hok with ⟨he, rfl, rfl, rfl⟩ | ⟨hne, -, hits, imps, out, r⟩
  · have he' : s'.live.filter (fun p => ch.outside (p .x) (p .y)) = [] := he
    refine ⟨[], [], by rw [he']; exact List.Forall₂.nil, by simp, by simp, by simp, by simp, by simp [binned],
      by simp [binned, enData], by simp [binned], ?_, by simp [onSeg], rfl, ?_⟩
    · intro k _
      rw [hfil, he]
      simp [binned]
    · intro j l l' h1 h2
      rw [h1] at h2
      cases h2
      exact ⟨rfl, by simp [onSeg, enData, binned]⟩
  have hS := hsey imps out r.sey
  obtain ⟨h1, h2, hh1, hh2, hnew⟩ := r.hists
  obtain ⟨q, qlife⟩ := impactHists_run _ _ _ _ _ _ _ hh1
  obtain ⟨⟨a1, a2, a3, a4, a5, a6, a7⟩, aE, aS, aSe⟩ := emit_same sq c h1 h2 h' out.replace out.new hh2 hnew
  have hof := r.impactOf
  refine ⟨imps, out.replace ++ out.new, hof, ?_, ?_, ?_, ?_, ?_, ?_, ?_, ?_, ?_, ?_, ?_⟩
  · intro i hi
    rw [r.imps] at hi
    obtain ⟨w, -, rfl⟩ := List.mem_map.1 hi
    rfl
  · intro e he
    rcases List.mem_append.1 he with he | he
    · obtain ⟨k, hk, hkeq⟩ := List.getElem_of_mem he
      have hll := hS.replace.length_eq
      have hr := (List.forall₂_iff_get.1 hS.replace).2 k (by rw [hll]; exact hk) hk
      simp only [List.get_eq_getElem] at hr
      rw [hkeq] at hr
      rcases hr with hr | hr
      · exact Or.inr ⟨_, List.getElem_mem (by rw [hll]; exact hk), hr⟩
      · exact Or.inl hr.1
    · obtain ⟨i, hi, h4⟩ := hS.new e he
      exact Or.inr ⟨i, hi, h4⟩
  · rw [r.count, hS.charge, List.map_append, List.sum_append]
  · rw [r.count, List.map_append, List.sum_append]
  · intro k hk
    have hlen := computeHist_length _ _ _ _ _ q.energ
    rw [emit_energ_getD sq c h1 h2 h' _ _ hh2 hnew k (by rw [hlen]; exact hk), computeHist_getD _ _ _ _ _ q.energ k hk, hlen]
    rfl
  · intro k hk
    rw [a4, computeHist_getD _ _ _ _ _ q.enLine k hk, enData_eq]
    rfl
  · intro k hk
    rw [a3, depositIf_getD _ _ _ _ _ q.cos k hk]
  · intro k hk
    rw [a5, depositIf_getD _ _ _ _ _ qlife k hk, hfil]
    congr 1
    cases hlt : s.lifetime with
    | false => simp
    | true =>
      have hraw : rawLive s = s.live := by
        rw [live_rawLive]
        conv_lhs => rw [← List.map_id (rawLive s)]
        apply List.map_congr_left
        intro p _
        funext f
        simp [trackP, MPs.tracked, hlt]
      have e : maskSel (rawLive s) (outMask s ch) = s.live.filter ch.out := by
        rw [hraw]; exact maskSel_map_self _ _
      rw [e, lifeData_eq sq c.ke tt _ _ hof, if_pos rfl]
      simp only [Bool.true_and]
      by_cases h0 : 0 < ((s.live.filter ch.out).filter (fun p => decide (0 < p .tl))).length
      · rw [if_pos (by simpa using h0)]
      · rw [if_neg (by simpa using h0), List.length_eq_zero_iff.1 (Nat.eq_zero_of_not_pos h0)]
        rfl
  · intro k hk
    rw [aSe, q.segEn]
    cases hf : c.flagSeg with
    | false => simp
    | true =>
      simp only [if_true]
      rw [updateSeg_getD _ _ _ (by rw [updateSeg_length]; exact hk), updateSeg_getD _ _ _ hk, List.filter_map, List.map_map,
        List.filter_map, List.map_map, add_assoc]
      congr 1
      have hneg : ∀ l : List (Emit K), (l.map ((fun x : ℤ × K => x.2) ∘ fun e => (e.seg, -e.nel * e.energy sq c.ke))).sum =
          -(l.map (fun e => e.nel * e.energy sq c.ke)).sum := by
        intro l
        induction l with
        | nil => simp
        | cons e l ih =>
          simp only [List.map_cons, List.sum_cons]
          rw [ih]
          simp only [Function.comp_apply]
          ring
      rw [hneg, sub_eq_add_neg]
      rfl
  · have h3 := q.segLines
    rw [a7]
    unfold segEnHistsIf at h3
    split at h3
    · exact (segEnHists_spec c imps 0 _ _ h3).1
    · rw [Except.ok.inj h3]
  · intro j l l' hj hj'
    have h3 := q.segLines
    rw [a7] at hj'
    unfold segEnHistsIf at h3
    by_cases hf : (c.flagSeg && c.flagEnSeg) = true
    · rw [if_pos hf] at h3
      simp only [hf, if_true]
      have := (segEnHists_spec c imps 0 _ _ h3).2 j l l' hj hj'
      rw [Nat.zero_add] at this
      exact this
    · rw [if_neg hf] at h3
      simp only [hf]
      rw [← Except.ok.inj h3, hj] at hj'
      cases hj'
      exact ⟨rfl, fun b _ => by simp⟩

/-- C19, bin by bin. With `imps` the impacts of the step (one per macroparticle found outside, with its size, velocity
and energy) and `ems` the emitted macroparticles: the energy map receives impacting and loses emitted energy at the place
of the impact; the energy spectrum receives every impact at its energy, those beyond the range in the last node; the
angle histogram at the cosine to the wall normal; each segment has its own energy spectrum and energy balance; the
lifetime histogram receives the time since the last impact of those that had one. Switched-off histograms do not change. -/
theorem C19_spectra (sq : K → K) (c : ImpCfg K) (ch : Chamber K)
    (sey : K → List (Impact K) → Except PyErr (SeyOut K)) (s : MPs K) (hwf : s.WF) (hroom : s.nmp < s.cap)
    (old : List (K × K × K)) (tt : K) (h : ImpHist K) (s' : MPs K) (h' : ImpHist K) (n : ImpCount K)
    (hsey : ∀ imps out, sey s.split imps = .ok out → SeyOk imps out)
    (hok : impactStep sq c ch sey s old tt h = .ok (s', h', n)) :
    ∃ (imps : List (Impact K)) (ems : List (Emit K)),
      List.Forall₂ (ImpactOf sq c.ke) (s.live.filter (fun p => ch.outside (p .x) (p .y))) imps ∧
      (∀ i ∈ imps, i.cth = |(i.vx * i.nx + i.vy * i.ny) / sq (i.vx * i.vx + i.vy * i.vy + i.vz * i.vz)|) ∧
      (∀ e ∈ ems, e.nel = 0 ∨ ∃ i ∈ imps, e.x = i.x ∧ e.y = i.y ∧ e.z = i.z ∧ e.seg = i.seg) ∧
      (ems.map (fun e => e.nel)).sum = n.nelEmit ∧
      (ems.map (fun e => e.kin sq c.ke * e.nel)).sum = n.enEmit ∧
      (∀ k < h.energ.length, h'.energ.getD k 0 = h.energ.getD k 0 +
        binned c.biasX c.dxHist h.energ.length (imps.map (fun i => (i.x, i.nel * i.en))) k -
        binned c.biasX c.dxHist h.energ.length (ems.map (fun e => (e.x, e.nel * e.kin sq c.ke))) k) ∧
      (∀ k < h.enLine.length, h'.enLine.getD k 0 = h.enLine.getD k 0 + binned 0 c.dEn h.enLine.length (enData c imps) k) ∧
      (∀ k < h.cos.length, h'.cos.getD k 0 = h.cos.getD k 0 +
        (if c.flagCos then binned 0 c.cosW h.cos.length (imps.map (fun i => (i.cth, i.nel))) k else 0)) ∧
      (∀ k < h.life.length, h'.life.getD k 0 = h.life.getD k 0 +
        (if s.lifetime then binned 0 c.dtLife h.life.length
          ((s.live.filter (fun p => ch.outside (p .x) (p .y) && decide (0 < p .tl))).map (fun p => (tt - p .tl, p .nel))) k
        else 0)) ∧
      (∀ k < h.segEn.length, h'.segEn.getD k 0 = h.segEn.getD k 0 +
        (if c.flagSeg then ((onSeg k imps).map (fun i => i.nel * i.en)).sum -
          ((ems.filter (fun e => decide (e.seg = (k : ℤ)))).map (fun e => e.nel * e.kin sq c.ke)).sum else 0)) ∧
      h'.segEnLines.length = h.segEnLines.length ∧
      (∀ (j : ℕ) (l l' : List K), h.segEnLines[j]? = some l → h'.segEnLines[j]? = some l' → l'.length = l.length ∧
        ∀ b < l.length, l'.getD b 0 = l.getD b 0 +
          (if c.flagSeg && c.flagEnSeg then binned 0 c.dEn l.length (enData c (onSeg j imps)) b else 0)) :=
  spectra_aux sq c ch sey s hwf hroom old tt h s' h' n hsey hok

/-- Non-vacuity: two segments, per-segment spectra and angle histogram switched on. -/
example : ∃ r, impactStep (fun v => v) { slabCfg with flagSeg := true, flagEnSeg := true, flagCos := true } slab slabSey toy toyOld 20
      slabHist = .ok r ∧ r.2.2.nelImp = 20 ∧ (r.2.1.segEnLines.map List.sum) = [20, 0] ∧ r.2.1.life.sum = 20 :=
  exists_ok (by decide +kernel)

end PyECLOUD
