import Verif.Lemmas.Impact

set_option linter.unusedSectionVars false

namespace PyECLOUD

variable {K : Type} [Field K] [LinearOrder K] [FloorRing K] [IsStrictOrderedRing K]

/-- each histogram after the impact part -/
structure ImpHistRun (c : ImpCfg K) (imps : List (Impact K)) (h h1 : ImpHist K) : Prop where
  tot : computeHist c.biasX c.dxHist h.tot (imps.map (fun i => (i.x, i.nel))) = .ok h1.tot
  scrub : computeHist c.biasX c.dxHist h.scrub
    (imps.map (fun i => (i.x, i.nel * (if c.scrubTh < i.en then 1 else 0)))) = .ok h1.scrub
  energ : computeHist c.biasX c.dxHist h.energ (imps.map (fun i => (i.x, i.nel * i.en))) = .ok h1.energ
  cos : depositIf c.flagCos 0 c.cosW h.cos (imps.map (fun i => (i.cth, i.nel))) = .ok h1.cos
  enLine : computeHist 0 c.dEn h.enLine (imps.map (fun i => (if c.enMax < i.en then c.enMax else i.en, i.nel)))
    = .ok h1.enLine
  segNel : h1.segNel = if c.flagSeg then updateSeg h.segNel (imps.map (fun i => (i.seg, i.nel))) else h.segNel
  segEn : h1.segEn = if c.flagSeg then updateSeg h.segEn (imps.map (fun i => (i.seg, i.nel * i.en))) else h.segEn
  segEmit : h1.segEmit = h.segEmit
  segLines : segEnHistsIf (c.flagSeg && c.flagEnSeg) c.dEn c.enMax imps h.segEnLines = .ok h1.segEnLines

/-- the data deposited in the lifetime histogram -/
def lifeData (tt : K) (tls : List K) (imps : List (Impact K)) : List (K × K) :=
  ((tls.zip imps).filter (fun q => decide (0 < q.1))).map (fun q => (tt - q.1, q.2.nel))

theorem impactHists_run (c : ImpCfg K) (lt : Bool) (tt : K) (tls : List K) (imps : List (Impact K))
    (h h1 : ImpHist K) (hok : impactHists c lt tt tls imps h = .ok h1) :
    ImpHistRun c imps h h1 ∧
    depositIf (lt && decide (0 < (lifeData tt tls imps).length)) 0 c.dtLife h.life (lifeData tt tls imps)
      = .ok h1.life := by
  unfold impactHists deposit at hok
  obtain ⟨life, e1, hok⟩ := bind_ok hok
  obtain ⟨tot, e2, hok⟩ := bind_ok hok
  obtain ⟨scrub, e3, hok⟩ := bind_ok hok
  obtain ⟨energ, e4, hok⟩ := bind_ok hok
  obtain ⟨cos, e5, hok⟩ := bind_ok hok
  obtain ⟨segl, e6, hok⟩ := bind_ok hok
  obtain ⟨enl, e7, hok⟩ := bind_ok hok
  cases hok
  exact ⟨⟨e2, e3, e4, e5, e7, rfl, rfl, rfl, e6⟩, e1⟩

/-- each histogram after the emission part -/
structure EmitHistRun (sq : K → K) (c : ImpCfg K) (es : List (Emit K)) (h h1 : ImpHist K) : Prop where
  energ : computeHist c.biasX c.dxHist h.energ (es.map (fun e => (e.x, -e.nel * e.energy sq c.ke))) = .ok h1.energ
  segEn : h1.segEn = if c.flagSeg then updateSeg h.segEn (es.map (fun e => (e.seg, -e.nel * e.energy sq c.ke)))
    else h.segEn
  segEmit : h1.segEmit = if c.flagSeg then updateSeg h.segEmit (es.map (fun e => (e.seg, e.nel))) else h.segEmit
  same : h1.tot = h.tot ∧ h1.scrub = h.scrub ∧ h1.cos = h.cos ∧ h1.enLine = h.enLine ∧ h1.life = h.life ∧
    h1.segNel = h.segNel ∧ h1.segEnLines = h.segEnLines

theorem emitHists_run (sq : K → K) (c : ImpCfg K) (es : List (Emit K)) (h h1 : ImpHist K)
    (hok : emitHists sq c es h = .ok h1) : EmitHistRun sq c es h h1 := by
  unfold emitHists deposit at hok
  obtain ⟨energ, e1, hok⟩ := bind_ok hok
  cases hok
  exact ⟨e1, rfl, rfl, rfl, rfl, rfl, rfl, rfl, rfl, rfl⟩

theorem emit_same (sq : K → K) (c : ImpCfg K) (h1 h2 h' : ImpHist K) (rep new : List (Emit K))
    (hr : emitHists sq c rep h1 = .ok h2) (hn : (new = [] ∧ h' = h2) ∨ (new ≠ [] ∧ emitHists sq c new h2 = .ok h')) :
    (h'.tot = h1.tot ∧ h'.scrub = h1.scrub ∧ h'.cos = h1.cos ∧ h'.enLine = h1.enLine ∧ h'.life = h1.life ∧
    h'.segNel = h1.segNel ∧ h'.segEnLines = h1.segEnLines) ∧
    h'.energ.sum = h1.energ.sum - ((rep.map (fun e => e.energy sq c.ke * e.nel)).sum
      + (new.map (fun e => e.energy sq c.ke * e.nel)).sum) ∧
    h'.segEmit = (if c.flagSeg then updateSeg h1.segEmit ((rep ++ new).map (fun e => (e.seg, e.nel)))
      else h1.segEmit) ∧
    h'.segEn = (if c.flagSeg then updateSeg h1.segEn ((rep ++ new).map (fun e => (e.seg, -e.nel * e.energy sq c.ke)))
      else h1.segEn) := by
  have r := emitHists_run sq c rep h1 h2 hr
  have key : ∀ (es : List (Emit K)), ((es.map (fun e => (e.x, -e.nel * e.energy sq c.ke))).map (·.2)).sum =
      -(es.map (fun e => e.energy sq c.ke * e.nel)).sum := by
    intro es
    induction es with
    | nil => simp
    | cons e es ih =>
      simp only [List.map_cons, List.sum_cons]
      rw [ih]; ring
  have s1 := computeHist_sum _ _ _ _ _ r.energ
  rw [key] at s1
  rcases hn with ⟨rfl, rfl⟩ | ⟨hne, hn⟩
  · refine ⟨r.same, ?_, ?_, ?_⟩
    · rw [s1]; simp; ring
    · simp only [List.append_nil]; exact r.segEmit
    · simp only [List.append_nil]; exact r.segEn
  · have q := emitHists_run sq c new h2 h' hn
    have s2 := computeHist_sum _ _ _ _ _ q.energ
    rw [key] at s2
    obtain ⟨a1, a2, a3, a4, a5, a6, a7⟩ := r.same
    obtain ⟨b1, b2, b3, b4, b5, b6, b7⟩ := q.same
    refine ⟨⟨b1.trans a1, b2.trans a2, b3.trans a3, b4.trans a4, b5.trans a5, b6.trans a6, b7.trans a7⟩, ?_, ?_, ?_⟩
    · rw [s2, s1]; ring
    · rw [q.segEmit, r.segEmit]
      split
      · unfold updateSeg; rw [List.map_append, List.foldl_append]
      · rfl
    · rw [q.segEn, r.segEn]
      split
      · unfold updateSeg; rw [List.map_append, List.foldl_append]
      · rfl

theorem ImpactRun.impactOf {sq : K → K} {c : ImpCfg K} {ch : Chamber K}
    {sey : K → List (Impact K) → Except PyErr (SeyOut K)} {s : MPs K} {old : List (K × K × K)} {tt : K}
    {h : ImpHist K} {s' : MPs K} {h' : ImpHist K} {n : ImpCount K} {hs : List (Hit K)} {is : List (Impact K)}
    {out : SeyOut K} (r : ImpactRun sq c ch sey s old tt h s' h' n hs is out) :
    List.Forall₂ (ImpactOf sq c.ke) (s.live.filter ch.out) is := by
  have hl : (s.live.filter ch.out).length = is.length := r.len.symm
  rw [List.forall₂_iff_get]
  refine ⟨hl, ?_⟩
  intro k h1 h2
  have e := r.imps
  subst e
  simp only [List.get_eq_getElem, List.getElem_map, List.getElem_zip]
  exact ⟨rfl, rfl, rfl, rfl, rfl⟩

theorem ImpactRun.charge {sq : K → K} {c : ImpCfg K} {ch : Chamber K}
    {sey : K → List (Impact K) → Except PyErr (SeyOut K)} {s : MPs K} {old : List (K × K × K)} {tt : K}
    {h : ImpHist K} {s' : MPs K} {h' : ImpHist K} {n : ImpCount K} {hs : List (Hit K)} {is : List (Impact K)}
    {out : SeyOut K} (r : ImpactRun sq c ch sey s old tt h s' h' n hs is out) :
    (is.map (fun i => i.nel)).sum = totalCharge (s.live.filter ch.out) := by
  unfold totalCharge
  have := r.impactOf
  congr 1
  rw [← List.forall₂_eq_eq_eq, List.forall₂_map_left_iff, List.forall₂_map_right_iff]
  exact this.flip.imp (fun a b hab => hab.1)

end PyECLOUD
