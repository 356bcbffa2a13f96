import Verif.Spec.Rounding
import Verif.Lemmas.MPCap

set_option linter.unusedSectionVars false

namespace PyECLOUD

variable {K : Type} [Field K] [LinearOrder K] [FloorRing K]

theorem stochRound_cases (x u : K) : stochRound x u = ⌊x⌋ ∨ stochRound x u = ⌊x⌋ + 1 := by
  unfold stochRound
  split
  · right; rfl
  · left; simp

theorem main_tracked (s : MPs K) (f : Fld) : f ∈ Fld.main ↔ f ≠ .tl := by
  cases f <;> simp [Fld.main]

/-- `addUniform` appends the drawn block; `tl` of the new entries is whatever was stored there -/
theorem addUniform_live (s s' : MPs K) (h : s.WF) (hn : s.nmp < s.cap) (o : K → K → Bool) (r : Rect K) (v q : K)
    (d : UniDraws K) (hok : s.addUniform o r v q d = .ok s') (hpos : 0 < (stochRound (q / s.ref) d.u).toNat) :
    ∃ pts, rejectLoop o (uniGen r.xMax r.xMin r.yMax r.yMin) d.rounds
        ((List.range (stochRound (q / s.ref) d.u).toNat).map
          (fun i => ((), uniGen r.xMax r.xMin r.yMax r.yMin () (d.x0 i) (d.y0 i)))) = .ok pts ∧
      pts.length = (stochRound (q / s.ref) d.u).toNat ∧
      s'.live = s.live ++ srcParticles s.tracked pts.length
        (fun f => if f = .tl then .array (((s.arr .tl).drop s.nmp).take pts.length) else uniSrc s v d pts f) := by
  have hcapwf := addUniform_wf s s' h hn o r v q d hok
  unfold MPs.addUniform at hok
  simp only at hok
  rw [if_pos hpos] at hok
  split at hok
  · simp at hok
  · next pts ep =>
    have hpl := rejectLoop_length _ _ _ _ _ ep
    refine ⟨pts, ep, by simpa using hpl, ?_⟩
    simp only [List.length_map, List.length_range] at hpl
    split at hok
    · simp at hok
    · next arr1 e1 =>
      split at hok
      · simp at hok
      · next arr2 e2 =>
        simp only [Except.ok.injEq] at hok
        rw [← hpl] at hok e1 e2
        have hfit : s.nmp + pts.length ≤ s.cap := by
          have := hcapwf.1.fits
          rw [hcapwf.2] at this
          rw [← hok] at this
          exact this
        subst hok
        have hsrc : ∀ f ∈ Fld.main, (uniSrc s v d pts f).Fits pts.length := by
          intro f hf
          cases f <;> simp [uniSrc, Src.Fits]
        rw [assignAll_ok s.arr Fld.main (by decide) _ _ _ hsrc (fun f _ => by rw [h.len]; exact hfit)] at e1
        simp only [Except.ok.injEq] at e1
        have hlen1 : ∀ f, (arr1 f).length = (s.arr f).length := by
          intro f
          rw [← e1]
          show (if _ then _ else _ : List K).length = _
          split
          · next hf =>
            have h1 := Src.expand_length _ _ (hsrc f hf)
            have h2 := h.len f
            simp [h1]; omega
          · rfl
        have hlen2 : ∀ f, (arr2 f).length = (arr1 f).length := by
          intro f
          split at e2
          · exact assignAll_len _ _ _ _ _ _ e2 f
          · simp only [Except.ok.injEq] at e2; subst e2; rfl
        have htake : ∀ f, (arr2 f).take (s.nmp + pts.length) = (arr1 f).take (s.nmp + pts.length) := by
          intro f
          split at e2
          · unfold assignAll at e2
            split at e2
            · simp at e2
            · next l el =>
              simp only [assignAll, Except.ok.injEq] at e2
              subst e2
              by_cases hf : f = .tl
              · subst hf
                rw [Function.update_self]
                exact sliceAssign_take _ _ _ _ _ el _ (le_refl _) (by rw [hlen1, h.len]; exact hfit)
              · rw [Function.update_of_ne hf]
          · simp only [Except.ok.injEq] at e2; subst e2; rfl
        refine (append_live s { s with arr := arr2, nmp := s.nmp + pts.length } h pts.length (fun f => if f = .tl then
            .array (((s.arr .tl).drop s.nmp).take pts.length) else uniSrc s v d pts f) rfl rfl hfit ?_ ?_ ?_).1
        · intro f _
          by_cases hf : f = .tl
          · subst hf
            have := h.len .tl
            simp [Src.Fits]; omega
          · simp only [hf, if_false]
            exact hsrc f ((main_tracked s f).2 hf)
        · intro f
          exact (hlen2 f).trans (hlen1 f)
        · intro f _
          rw [show ({ s with arr := arr2, nmp := s.nmp + pts.length } : MPs K).arr f = arr2 f from rfl, htake f,
            ← e1]
          by_cases hf : f = .tl
          · subst hf
            simp only [Fld.main, List.mem_cons, List.not_mem_nil, or_false, reduceCtorEq, if_false, if_true,
              Src.expand]
            rw [List.take_add]
          · have hm := (main_tracked s f).2 hf
            simp only [hf, if_false, hm, if_true]
            exact block_take _ _ _ _ _ (by rw [h.len]; exact h.fits) (Src.expand_length _ _ (hsrc f hm))

theorem addUniform_none (s : MPs K) (o : K → K → Bool) (r : Rect K) (v q : K) (d : UniDraws K)
    (hpos : ¬ 0 < (stochRound (q / s.ref) d.u).toNat) : s.addUniform o r v q d = .ok s := by
  unfold MPs.addUniform
  simp only
  rw [if_neg hpos]

/-- `addDensity` appends the drawn points that are inside -/
theorem addDensity_live (s s' : MPs K) (h : s.WF) (hn : s.nmp < s.cap) (o : K → K → Bool) (r : Rect K) (v q : K)
    (d : UniDraws K) (hok : s.addDensity o r v q d = .ok s') :
    s'.live = s.live ++ srcParticles s.tracked ((((List.range (stochRound (q * (r.xMax - r.xMin) * (r.yMax - r.yMin) / s.ref) d.u).toNat).map
          (fun i => ((), uniGen r.xMax r.xMin r.yMax r.yMin () (d.x0 i) (d.y0 i)))).filter
          (fun p => !o p.2.1 p.2.2))).length
        (uniSrc s v d (((List.range (stochRound (q * (r.xMax - r.xMin) * (r.yMax - r.yMin) / s.ref) d.u).toNat).map
          (fun i => ((), uniGen r.xMax r.xMin r.yMax r.yMin () (d.x0 i) (d.y0 i)))).filter
          (fun p => !o p.2.1 p.2.2))) := by
  have hcapwf := addDensity_wf s s' h hn o r v q d hok
  unfold MPs.addDensity at hok
  simp only at hok
  split at hok
  · simp at hok
  · next arr1 e1 =>
    split at hok
    · simp at hok
    · next arr2 e2 =>
      simp only [Except.ok.injEq] at hok
      set pts := (List.filter (fun p => !o p.2.1 p.2.2)
              (List.map (fun i => ((), uniGen r.xMax r.xMin r.yMax r.yMin () (d.x0 i) (d.y0 i)))
                (List.range (stochRound (q * (r.xMax - r.xMin) * (r.yMax - r.yMin) / s.ref) d.u).toNat))) with hp
      have hfit : s.nmp + pts.length ≤ s.cap := by
        have := hcapwf.1.fits
        rw [hcapwf.2] at this
        rw [← hok] at this
        exact this
      subst hok
      have hsrc : ∀ f, (uniSrc s v d pts f).Fits pts.length := by
        intro f
        cases f <;> simp [uniSrc, Src.Fits]
      have e1' : arr1 = fun f => if f ∈ Fld.main then
          (s.arr f).take s.nmp ++ (uniSrc s v d pts f).expand pts.length ++ (s.arr f).drop (s.nmp + pts.length)
          else s.arr f := by
        split at e1
        · rw [assignAll_ok s.arr Fld.main (by decide) _ _ _ (fun f _ => hsrc f)
            (fun f _ => by rw [h.len]; exact hfit)] at e1
          simp only [Except.ok.injEq] at e1
          exact e1.symm
        · next h0 =>
          simp only [Except.ok.injEq] at e1
          have hz : (stochRound (q * (r.xMax - r.xMin) * (r.yMax - r.yMin) / s.ref) d.u).toNat = 0 := by omega
          have hpn : pts = [] := by simp [hp, hz]
          rw [hpn, ← e1]
          funext f
          have : ∀ f, (uniSrc s v d [] f).expand 0 = [] := by
            intro f; cases f <;> simp [uniSrc, Src.expand]
          simp [this]
      have hlen1 : ∀ f, (arr1 f).length = (s.arr f).length := by
        intro f
        rw [e1']
        show (if _ then _ else _ : List K).length = _
        split
        · next hf =>
          have h1 := Src.expand_length _ _ (hsrc f)
          have h2 := h.len f
          simp [h1]; omega
        · rfl
      have e2' : arr2 = fun f => if f ∈ (Fld.main ++ if s.lifetime then [Fld.tl] else []) then
          (s.arr f).take s.nmp ++ (uniSrc s v d pts f).expand pts.length ++ (s.arr f).drop (s.nmp + pts.length)
          else s.arr f := by
        split at e2
        · next hl =>
          rw [assignAll_ok arr1 [.tl] (by decide) _ _ _ (fun f _ => hsrc f)
            (fun f _ => by rw [hlen1, h.len]; exact hfit)] at e2
          simp only [Except.ok.injEq] at e2
          rw [← e2, e1']
          funext f
          cases f <;> simp [Fld.main, hl]
        · next hl =>
          simp only [Except.ok.injEq] at e2
          rw [← e2, e1']
          funext f
          cases f <;> simp [Fld.main, hl]
      refine (append_live s { s with arr := arr2, nmp := s.nmp + pts.length } h pts.length _ rfl rfl hfit (fun f _ => hsrc f) ?_ ?_).1
      · intro f
        show (arr2 f).length = _
        rw [e2']
        show (if f ∈ (Fld.main ++ if s.lifetime then [Fld.tl] else []) then
          (s.arr f).take s.nmp ++ (uniSrc s v d pts f).expand pts.length ++ (s.arr f).drop (s.nmp + pts.length)
          else s.arr f).length = _
        by_cases hf : f ∈ (Fld.main ++ if s.lifetime then [Fld.tl] else [])
        · have h1 := Src.expand_length _ _ (hsrc f)
          have h2 := h.len f
          rw [if_pos hf]
          simp only [List.length_append, List.length_take, List.length_drop, h1]; omega
        · rw [if_neg hf]
      · intro f hf
        show (arr2 f).take _ = _
        rw [e2']
        have : f ∈ (Fld.main ++ if s.lifetime then [Fld.tl] else []) := by
          rw [mem_addFields]; exact hf
        simp only [this, if_true]
        exact block_take _ _ _ _ _ (by rw [h.len]; exact h.fits) (Src.expand_length _ _ (hsrc f))

theorem mem_srcParticles (tr : Fld → Bool) (n : ℕ) (src : Fld → Src K) (p : Particle K)
    (hp : p ∈ srcParticles tr n src) : ∃ i < n, ∀ f, p f = if tr f then ((src f).expand n).getD i 0 else -1 := by
  unfold srcParticles at hp
  obtain ⟨i, hi, rfl⟩ := List.mem_map.1 hp
  exact ⟨i, by simpa using hi, fun f => rfl⟩

theorem stochRound_eq [FloorRing K] (x u : K) : stochRound x u = roundedCount x u := by
  unfold stochRound roundedCount Int.fract
  split <;> simp

end PyECLOUD
