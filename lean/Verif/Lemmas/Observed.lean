import Verif.Model.Observed
import Verif.Lemmas.SimStep
import Mathlib.Data.List.GetD
import Mathlib.Tactic.LinearCombination

/-! # Lemmas on the simulation loop with the saver -/

set_option linter.unusedSectionVars false

namespace PyECLOUD

variable {K : Type} [Field K] [LinearOrder K] [IsStrictOrderedRing K] [FloorRing K]

/-- two histograms change in the same way -/
def Shift (h g h' g' : List K) : Prop := ∀ k : ℕ, h'.getD k 0 - h.getD k 0 = g'.getD k 0 - g.getD k 0

theorem addAt_getD' (h : List K) (i : ℕ) (v : K) (k : ℕ) :
    (addAt h i v).getD k 0 = h.getD k 0 + if i - 1 = k ∧ k < h.length then v else 0 := by
  unfold addAt
  rw [List.getD_eq_getElem?_getD, List.getD_eq_getElem?_getD, List.getElem?_modify]
  by_cases hk : k < h.length
  · rw [List.getElem?_eq_getElem hk]
    by_cases e : i - 1 = k
    · simp [e, hk]
    · simp [e]
  · rw [List.getElem?_eq_none (by omega)]
    simp [hk]

theorem histStep_shift (bias dx : K) (h g h' : List K) (x w : K) (hl : h.length = g.length)
    (hok : histStep bias dx h x w = .ok h') :
    ∃ g', histStep bias dx g x w = .ok g' ∧ h'.length = h.length ∧ g'.length = g.length ∧ Shift h g h' g' := by
  have hlen := histStep_length bias dx h h' x w hok
  unfold histStep at hok ⊢
  simp only at hok ⊢
  rw [← hl]
  split at hok
  · cases hok
  · next c1 =>
   rw [if_neg c1]
   split at hok
   · next c2 =>
      rw [if_pos c2]
      cases hok
      refine ⟨_, rfl, hlen, by simp [addAt, hl], fun k => ?_⟩
      rw [addAt_getD', addAt_getD', addAt_getD', addAt_getD']
      simp only [addAt, List.length_modify, hl]
      ring
   · next c2 =>
      rw [if_neg c2]
      cases hok
      refine ⟨_, rfl, hlen, by simp [addAt, hl], fun k => ?_⟩
      rw [addAt_getD', addAt_getD', hl]
      ring

theorem computeHist_shift (bias dx : K) (h g h' : List K) (ps : List (K × K)) (hl : h.length = g.length)
    (hok : computeHist bias dx h ps = .ok h') :
    ∃ g', computeHist bias dx g ps = .ok g' ∧ h'.length = h.length ∧ g'.length = g.length ∧ Shift h g h' g' := by
  induction ps generalizing h g with
  | nil => cases hok; exact ⟨g, rfl, rfl, rfl, fun k => by ring⟩
  | cons p ps ih =>
    unfold computeHist at hok ⊢
    split at hok
    · cases hok
    · next h1 e =>
      obtain ⟨g1, e1, l1, l2, s1⟩ := histStep_shift bias dx h g h1 p.1 p.2 hl e
      obtain ⟨g', e2, l3, l4, s2⟩ := ih h1 g1 (by rw [l1, l2, hl]) hok
      refine ⟨g', by rw [e1]; exact e2, l3.trans l1, l4.trans l2, fun k => ?_⟩
      have := s1 k
      have := s2 k
      linear_combination s1 k + s2 k

/-- `f` switches the deposition on, `f'` may switch it off -/
theorem depositIf_shift (f f' : Bool) (hf : f' = true → f = true) (bias dx : K) (h g h' : List K) (ps : List (K × K))
    (hl : h.length = g.length) (hok : depositIf f bias dx h ps = .ok h') :
    ∃ g', depositIf f' bias dx g ps = .ok g' ∧ h'.length = h.length ∧ g'.length = g.length ∧ (f' = f → Shift h g h' g') := by
  unfold depositIf deposit at *
  cases f with
  | false =>
    cases f' with
    | false => cases hok; exact ⟨g, rfl, rfl, rfl, fun _ k => by ring⟩
    | true => exact absurd (hf rfl) Bool.false_ne_true
  | true =>
    obtain ⟨g', e1, l1, l2, s1⟩ := computeHist_shift bias dx h g h' ps hl hok
    cases f' with
    | false => exact ⟨g, rfl, l1, rfl, fun e => absurd e Bool.false_ne_true⟩
    | true => exact ⟨g', e1, l1, l2, fun _ => s1⟩

theorem updateSeg_shift (h g : List K) (ps : List (ℤ × K)) (hl : h.length = g.length) :
    Shift h g (updateSeg h ps) (updateSeg g ps) := by
  induction ps generalizing h g with
  | nil => intro k; simp only [updateSeg, List.foldl_nil]; ring
  | cons p ps ih =>
    intro k
    have hu : ∀ l : List K, updateSeg l (p :: ps) =
        updateSeg (if p.1 + 1 ≤ (l.length : ℤ) ∧ p.1 + 1 ≥ 1 then addAt l (p.1 + 1).toNat p.2 else l) ps := fun l => rfl
    rw [hu, hu, ← hl]
    split
    · have := ih (addAt h (p.1 + 1).toNat p.2) (addAt g (p.1 + 1).toNat p.2) (by simp [addAt, hl]) k
      rw [addAt_getD' h, addAt_getD' g, hl] at this
      linear_combination this
    · exact ih h g hl k

theorem updateSegIf_shift (f f' : Bool) (h g : List K) (ps : List (ℤ × K)) (hl : h.length = g.length) :
    (if f then updateSeg h ps else h).length = h.length ∧ (if f' then updateSeg g ps else g).length = g.length ∧
    (f' = f → Shift h g (if f then updateSeg h ps else h) (if f' then updateSeg g ps else g)) := by
  refine ⟨by cases f <;> simp [updateSeg_length], by cases f' <;> simp [updateSeg_length], ?_⟩
  rintro rfl
  cases f' with
  | false => exact fun k => by simp
  | true => exact updateSeg_shift h g ps hl

/-- the same numbers of bins -/
structure SameShape (h g : ImpHist K) : Prop where
  key : ∀ a, (h.key a).length = (g.key a).length
  seg : h.segEnLines.length = g.segEnLines.length

theorem SameShape.refl (h : ImpHist K) : SameShape h h := ⟨fun _ => rfl, rfl⟩

theorem SameShape.symm {h g : ImpHist K} (a : SameShape h g) : SameShape g h := ⟨fun k => (a.key k).symm, a.seg.symm⟩

theorem SameShape.trans {h g f : ImpHist K} (a : SameShape h g) (b : SameShape g f) : SameShape h f :=
  ⟨fun k => (a.key k).trans (b.key k), a.seg.trans b.seg⟩

/-- lists of histograms -/
def LinesShift (f f' : Bool) (h g h' g' : List (List K)) : Prop :=
  h'.length = h.length ∧ g'.length = g.length ∧ (∀ k : ℕ, (h'.getD k []).length = (h.getD k []).length) ∧
  (∀ k : ℕ, (g'.getD k []).length = (g.getD k []).length) ∧
  (f' = f → ∀ k : ℕ, Shift (h.getD k []) (g.getD k []) (h'.getD k []) (g'.getD k []))

theorem segEnHists_shift (dEn enMax : K) (imps : List (Impact K)) (j : ℕ) (h g h' : List (List K))
    (hl : h.length = g.length) (hk : ∀ k : ℕ, (h.getD k []).length = (g.getD k []).length)
    (hok : segEnHists dEn enMax imps j h = .ok h') :
    ∃ g', segEnHists dEn enMax imps j g = .ok g' ∧ LinesShift true true h g h' g' := by
  induction h generalizing g j h' with
  | nil =>
    cases g with
    | nil => cases hok; exact ⟨[], rfl, rfl, rfl, fun _ => rfl, fun _ => rfl, fun _ k i => by ring⟩
    | cons a g => cases hl
  | cons a h ih =>
    cases g with
    | nil => cases hl
    | cons b g =>
      unfold segEnHists at hok ⊢
      obtain ⟨a', h1, h2⟩ := bind_ok hok
      obtain ⟨l', h3, h4⟩ := bind_ok h2
      cases h4
      obtain ⟨b', e1, l1, l2, s1⟩ := depositIf_shift _ _ id _ _ a b a' _ (by simpa using hk 0) h1
      obtain ⟨g', e2, m1, m2, m3, m4, m5⟩ := ih (j + 1) g l' (by simpa using hl) (fun k => by simpa using hk (k + 1)) h3
      refine ⟨b' :: g', by simp only [e1, e2, bind, Except.bind], by simp [m1], by simp [m2], ?_, ?_, ?_⟩
      · intro k; cases k with
        | zero => simpa using l1
        | succ k => simpa using m3 k
      · intro k; cases k with
        | zero => simpa using l2
        | succ k => simpa using m4 k
      · intro _ k; cases k with
        | zero => simpa using s1 rfl
        | succ k => simpa using m5 rfl k

theorem segEnHistsIf_shift (f f' : Bool) (hf : f' = true → f = true) (dEn enMax : K) (imps : List (Impact K))
    (h g h' : List (List K)) (hl : h.length = g.length) (hk : ∀ k : ℕ, (h.getD k []).length = (g.getD k []).length)
    (hok : segEnHistsIf f dEn enMax imps h = .ok h') :
    ∃ g', segEnHistsIf f' dEn enMax imps g = .ok g' ∧ LinesShift f f' h g h' g' := by
  unfold segEnHistsIf at *
  cases f with
  | false =>
    cases f' with
    | false => cases hok; exact ⟨g, rfl, rfl, rfl, fun _ => rfl, fun _ => rfl, fun _ k i => by ring⟩
    | true => exact absurd (hf rfl) Bool.false_ne_true
  | true =>
    obtain ⟨g', e1, m1, m2, m3, m4, m5⟩ := segEnHists_shift dEn enMax imps 0 h g h' hl hk hok
    cases f' with
    | false => exact ⟨g, rfl, m1, rfl, m3, fun _ => rfl, fun e => absurd e Bool.false_ne_true⟩
    | true => exact ⟨g', e1, m1, m2, m3, m4, fun _ => m5 rfl⟩

/-- settings of an impact manager that differ at most in optional histograms that are switched off -/
structure Quieter (c' c : ImpCfg K) : Prop where
  ke : c'.ke = c.ke
  biasX : c'.biasX = c.biasX
  dxHist : c'.dxHist = c.dxHist
  scrubTh : c'.scrubTh = c.scrubTh
  enMax : c'.enMax = c.enMax
  dEn : c'.dEn = c.dEn
  cosW : c'.cosW = c.cosW
  dtLife : c'.dtLife = c.dtLife
  seg : c'.flagSeg = true → c.flagSeg = true
  enSeg : c'.flagEnSeg = true → c.flagEnSeg = true
  cos : c'.flagCos = true → c.flagCos = true

theorem Quieter.refl (c : ImpCfg K) : Quieter c c := ⟨rfl, rfl, rfl, rfl, rfl, rfl, rfl, rfl, id, id, id⟩

/-- all histograms change in the same way -/
def ShiftAll (h g h' g' : ImpHist K) : Prop := ∀ a, Shift (h.key a) (g.key a) (h'.key a) (g'.key a)

theorem ShiftAll.refl (h g : ImpHist K) : ShiftAll h g h g := fun _ _ => by ring

theorem ShiftAll.trans {h g h1 g1 h2 g2 : ImpHist K} (a : ShiftAll h g h1 g1) (b : ShiftAll h1 g1 h2 g2) : ShiftAll h g h2 g2 :=
  fun k i => by linear_combination a k i + b k i

theorem impactHists_shift (c c' : ImpCfg K) (q : Quieter c' c) (lt : Bool) (tt : K) (tls : List K) (imps : List (Impact K))
    (h g h' : ImpHist K) (sh : SameShape h g) (hok : impactHists c lt tt tls imps h = .ok h') :
    ∃ g', impactHists c' lt tt tls imps g = .ok g' ∧ SameShape h h' ∧ SameShape g g' ∧ (c' = c → ShiftAll h g h' g') := by
  unfold impactHists at hok
  obtain ⟨life, a1, hok⟩ := bind_ok hok
  obtain ⟨tot, a2, hok⟩ := bind_ok hok
  obtain ⟨scrub, a3, hok⟩ := bind_ok hok
  obtain ⟨energ, a4, hok⟩ := bind_ok hok
  obtain ⟨cos, a5, hok⟩ := bind_ok hok
  obtain ⟨lines, a6, hok⟩ := bind_ok hok
  obtain ⟨en, a7, hok⟩ := bind_ok hok
  have e := Except.ok.inj hok
  subst e
  obtain ⟨life', b1, l1, m1, s1⟩ := depositIf_shift _ _ id _ _ h.life g.life life _ (sh.key .life) a1
  obtain ⟨tot', b2, l2, m2, s2⟩ := computeHist_shift _ _ h.tot g.tot tot _ (sh.key .tot) a2
  obtain ⟨scrub', b3, l3, m3, s3⟩ := computeHist_shift _ _ h.scrub g.scrub scrub _ (sh.key .scrub) a3
  obtain ⟨energ', b4, l4, m4, s4⟩ := computeHist_shift _ _ h.energ g.energ energ _ (sh.key .energ) a4
  obtain ⟨cos', b5, l5, m5, s5⟩ := depositIf_shift _ c'.flagCos q.cos _ _ h.cos g.cos cos _ (sh.key .cos) a5
  obtain ⟨lines', b6, n1, n2, n3, n4, n5⟩ := segEnHistsIf_shift _ (c'.flagSeg && c'.flagEnSeg)
    (fun hh => by
      have := Bool.and_eq_true_iff.1 hh
      exact Bool.and_eq_true_iff.2 ⟨q.seg this.1, q.enSeg this.2⟩) _ _ imps h.segEnLines g.segEnLines lines sh.seg
    (fun k => sh.key (.segE k)) a6
  obtain ⟨en', b7, l7, m7, s7⟩ := computeHist_shift _ _ h.enLine g.enLine en _ (sh.key .enLine) a7
  have u1 := updateSegIf_shift c.flagSeg c'.flagSeg h.segNel g.segNel (imps.map (fun i => (i.seg, i.nel))) (sh.key .segNel)
  have u2 := updateSegIf_shift c.flagSeg c'.flagSeg h.segEn g.segEn (imps.map (fun i => (i.seg, i.nel * i.en))) (sh.key .segEn)
  refine ⟨{ g with
      life := life', tot := tot', scrub := scrub', energ := energ', cos := cos'
      segNel := if c'.flagSeg then updateSeg g.segNel (imps.map (fun i => (i.seg, i.nel))) else g.segNel
      segEn := if c'.flagSeg then updateSeg g.segEn (imps.map (fun i => (i.seg, i.nel * i.en))) else g.segEn
      segEnLines := lines', enLine := en' }, ?_, ⟨?_, n1.symm⟩, ⟨?_, n2.symm⟩, ?_⟩
  · unfold impactHists
    rw [q.biasX, q.dxHist, q.scrubTh, q.enMax, q.dEn, q.cosW, q.dtLife]
    unfold deposit at *
    simp only [bind, Except.bind, b1, b2, b3, b4, b5, b6, b7]
  · rintro (_ | _ | _ | _ | _ | _ | _ | _ | _ | k)
    exacts [l2.symm, l3.symm, l4.symm, l5.symm, l7.symm, l1.symm, u1.1.symm, rfl, u2.1.symm, (n3 k).symm]
  · rintro (_ | _ | _ | _ | _ | _ | _ | _ | _ | k)
    exacts [m2.symm, m3.symm, m4.symm, m5.symm, m7.symm, m1.symm, u1.2.1.symm, rfl, u2.2.1.symm, (n4 k).symm]
  · rintro rfl
    rintro (_ | _ | _ | _ | _ | _ | _ | _ | _ | k)
    exacts [s2, s3, s4, s5 rfl, s7, s1 rfl, u1.2.2 rfl, fun k => by simp [ImpHist.key], u2.2.2 rfl, n5 rfl k]

theorem emitHists_shift (sq : K → K) (c c' : ImpCfg K) (q : Quieter c' c) (es : List (Emit K)) (h g h' : ImpHist K)
    (sh : SameShape h g) (hok : emitHists sq c es h = .ok h') :
    ∃ g', emitHists sq c' es g = .ok g' ∧ SameShape h h' ∧ SameShape g g' ∧ (c' = c → ShiftAll h g h' g') := by
  unfold emitHists at hok
  obtain ⟨energ, a4, hok⟩ := bind_ok hok
  have e := Except.ok.inj hok
  subst e
  obtain ⟨energ', b4, l4, m4, s4⟩ := computeHist_shift _ _ h.energ g.energ energ _ (sh.key .energ) a4
  have u1 := updateSegIf_shift c.flagSeg c'.flagSeg h.segEn g.segEn (es.map (fun e => (e.seg, -e.nel * e.energy sq c.ke)))
    (sh.key .segEn)
  have u2 := updateSegIf_shift c.flagSeg c'.flagSeg h.segEmit g.segEmit (es.map (fun e => (e.seg, e.nel))) (sh.key .segEmit)
  refine ⟨{ g with
      energ := energ'
      segEn := if c'.flagSeg then updateSeg g.segEn (es.map (fun e => (e.seg, -e.nel * e.energy sq c.ke))) else g.segEn
      segEmit := if c'.flagSeg then updateSeg g.segEmit (es.map (fun e => (e.seg, e.nel))) else g.segEmit },
    ?_, ⟨?_, rfl⟩, ⟨?_, rfl⟩, ?_⟩
  · unfold emitHists
    rw [q.biasX, q.dxHist, q.ke]
    unfold deposit at *
    simp only [bind, Except.bind, b4]
  · rintro (_ | _ | _ | _ | _ | _ | _ | _ | _ | k)
    exacts [rfl, rfl, l4.symm, rfl, rfl, rfl, rfl, u2.1.symm, u1.1.symm, rfl]
  · rintro (_ | _ | _ | _ | _ | _ | _ | _ | _ | k)
    exacts [rfl, rfl, m4.symm, rfl, rfl, rfl, rfl, u2.2.1.symm, u1.2.1.symm, rfl]
  · rintro rfl
    rintro (_ | _ | _ | _ | _ | _ | _ | _ | _ | k)
    exacts [fun k => by simp [ImpHist.key], fun k => by simp [ImpHist.key], s4, fun k => by simp [ImpHist.key],
      fun k => by simp [ImpHist.key], fun k => by simp [ImpHist.key], fun k => by simp [ImpHist.key], u2.2.2 rfl, u1.2.2 rfl,
      fun k => by simp [ImpHist.key]]

theorem addEmitted_shift (sq : K → K) (c c' : ImpCfg K) (q : Quieter c' c) (s : MPs K) (new : List (Emit K)) (tt : K)
    (h g : ImpHist K) (sh : SameShape h g) (s' : MPs K) (h' : ImpHist K) (e : K)
    (hok : addEmitted sq c s new tt h = .ok (s', h', e)) :
    ∃ g', addEmitted sq c' s new tt g = .ok (s', g', e) ∧ SameShape h h' ∧ SameShape g g' ∧ (c' = c → ShiftAll h g h' g') := by
  unfold addEmitted at *
  split at hok
  · next hn =>
    obtain ⟨s2, a1, hok⟩ := bind_ok hok
    obtain ⟨h3, a2, hok⟩ := bind_ok hok
    have e := Except.ok.inj hok
    simp only [Prod.mk.injEq] at e
    obtain ⟨rfl, rfl, rfl⟩ := e
    obtain ⟨g', b, r⟩ := emitHists_shift sq c c' q new h g h3 sh a2
    refine ⟨g', ?_, r⟩
    rw [if_pos hn]
    simp only [bind, Except.bind, a1, b, q.ke]
  · next hn =>
    cases hok
    exact ⟨g, by rw [if_neg hn], SameShape.refl h, SameShape.refl g, fun _ => ShiftAll.refl h g⟩

theorem impactStep_shift (sq : K → K) (c c' : ImpCfg K) (q : Quieter c' c) (ch : Chamber K)
    (sey : K → List (Impact K) → Except PyErr (SeyOut K)) (s : MPs K) (old : List (K × K × K)) (tt : K)
    (h g : ImpHist K) (sh : SameShape h g) (s' : MPs K) (h' : ImpHist K) (n : ImpCount K)
    (hok : impactStep sq c ch sey s old tt h = .ok (s', h', n)) :
    ∃ g', impactStep sq c' ch sey s old tt g = .ok (s', g', n) ∧ SameShape h h' ∧ SameShape g g' ∧
      (c' = c → ShiftAll h g h' g') := by
  have same : ∃ g', (.ok (s, g, ⟨0, 0, 0, 0⟩) : Except PyErr (MPs K × ImpHist K × ImpCount K)) = .ok (s, g', ⟨0, 0, 0, 0⟩) ∧
      SameShape h h ∧ SameShape g g' ∧ (c' = c → ShiftAll h g h g') :=
    ⟨g, rfl, SameShape.refl h, SameShape.refl g, fun _ => ShiftAll.refl h g⟩
  unfold impactStep at *
  simp only at hok ⊢
  split at hok
  · next h1 =>
    rw [if_pos h1]
    split at hok
    · next h2 =>
      rw [if_pos h2]
      split at hok
      · cases hok
      · next h3 =>
        rw [if_neg h3]
        obtain ⟨hits, a1, hok⟩ := bind_ok hok
        obtain ⟨k1, a2, hok⟩ := bind_ok hok
        obtain ⟨out, a3, hok⟩ := bind_ok hok
        obtain ⟨k2, a4, hok⟩ := bind_ok hok
        obtain ⟨⟨r1, r2, r3⟩, a5, hok⟩ := bind_ok hok
        have e := Except.ok.inj hok
        simp only [Prod.mk.injEq] at e
        obtain ⟨rfl, rfl, rfl⟩ := e
        obtain ⟨g1, b1, p1, p2, p3⟩ := impactHists_shift c c' q _ _ _ _ h g k1 sh a2
        obtain ⟨g2, b2, p4, p5, p6⟩ := emitHists_shift sq c c' q _ k1 g1 k2 ((p1.symm.trans sh).trans p2) a4
        obtain ⟨g3, b3, p7, p8, p9⟩ := addEmitted_shift sq c c' q _ _ _ k2 g2 (((p4.symm.trans (p1.symm.trans sh)).trans p2).trans p5)
          _ _ _ a5
        refine ⟨g3, ?_, (p1.trans p4).trans p7, (p2.trans p5).trans p8, fun e => ((p3 e).trans (p6 e)).trans (p9 e)⟩
        rw [q.ke]
        simp only [bind, Except.bind, a1, b1, a3, b2, b3]
    · next h2 =>
      rw [if_neg h2]
      cases hok
      exact same
  · next h1 =>
    rw [if_neg h1]
    cases hok
    exact same

end PyECLOUD
