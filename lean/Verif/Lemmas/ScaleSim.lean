import Verif.Lemmas.Scale
import Verif.Lemmas.SimStep

/-!
# Lemmas: multiplying all charges by a factor, sources, impacts and whole simulations
-/

set_option linter.unusedSectionVars false

namespace PyECLOUD

variable {K : Type} [Field K] [LinearOrder K] [IsStrictOrderedRing K] [FloorRing K]

/-! ## Sources -/

theorem src_scl (l : K) (src src' : Fld → Src K) (h1 : ∀ f, f ≠ .nel → src' f = src f)
    (h2 : src' .nel = (src .nel).map (l * ·)) (f : Fld) : src' f = (src f).map (sclFld l f) := by
  by_cases hf : f = .nel
  · subst hf
    rw [h2, sclFld_nel]
  · rw [h1 f hf, sclFld_of_ne l hf]
    cases src f <;> simp [Src.map]

theorem gas_scl (l : K) (hl : 0 < l) (outside : K → K → Bool) (unifFrac xAper yAper kIon v0 lam dt sx sy xb yb : K)
    (d : GasDraws K) (s : MPs K) :
    gasGenerate outside unifFrac xAper yAper (l * kIon) v0 lam dt sx sy xb yb d (s.scl l) =
      (gasGenerate outside unifFrac xAper yAper kIon v0 lam dt sx sy xb yb d s).map (MPs.scl l) := by
  unfold gasGenerate
  dsimp only
  rw [scl_ref, show l * kIon * lam * dt = l * (kIon * lam * dt) by ring, mul_div_mul_left _ _ hl.ne']
  split
  · split
    · rename_i h
      rw [h]
      rfl
    · rename_i h
      rw [h]
      refine addNew_scl l s _ _ _ (src_scl l _ _ ?_ ?_)
      · intro f hf
        cases f <;> first | rfl | exact absurd rfl hf
      · rfl
  · rfl

theorem photoCount_scl (l : K) (hl : 0 < l) (kc : K) (mean : Option K) (lam dt ref u : K) :
    photoCount (l * kc) mean lam dt (l * ref) u = photoCount kc mean lam dt ref u := by
  unfold photoCount
  rw [show l * kc * mean.getD lam * dt = l * (kc * mean.getD lam * dt) by ring, mul_div_mul_left _ _ hl.ne']

theorem photoSrc_scl (l : K) (ref : K) (hits : List (Hit K)) (vel : List (K × K × K)) (f : Fld) :
    photoSrc (l * ref) hits vel f = (photoSrc ref hits vel f).map (sclFld l f) := by
  refine src_scl l (photoSrc ref hits vel) (photoSrc (l * ref) hits vel) ?_ ?_ f
  · intro f hf
    cases f <;> first | rfl | exact absurd rfl hf
  · rfl

theorem photo_scl (l : K) (hl : 0 < l) (ch : Chamber K) (vel : ℕ → Hit K → K × K × K) (ends : ℕ → (K × K) × (K × K)) (kc : K)
    (mean : Option K) (lam dt u : K) (s : MPs K) : photoGenerate ch vel ends (l * kc) mean lam dt u (s.scl l) =
      (photoGenerate ch vel ends kc mean lam dt u s).map (MPs.scl l) := by
  unfold photoGenerate
  dsimp only
  rw [scl_ref, photoCount_scl l hl]
  split
  · unfold photoSet
    split
    · rfl
    · rw [scl_ref]
      exact addNew_scl l s _ _ _ (photoSrc_scl l _ _ _)
  · rfl

theorem photoSeg_scl (l : K) (hl : 0 < l) (outside : K → K → Bool) (segs : List (PhSeg K)) (cdf : List K)
    (vel : ℕ → PhSeg K → K × K × K) (kc : K) (mean : Option K) (lam dt u : K) (seg r0 : ℕ → K) (rounds : List (ℕ → K))
    (s : MPs K) : photoSegGenerate outside segs cdf vel (l * kc) mean lam dt u seg r0 rounds (s.scl l) =
      (photoSegGenerate outside segs cdf vel kc mean lam dt u seg r0 rounds s).map (MPs.scl l) := by
  unfold photoSegGenerate
  dsimp only
  rw [scl_ref, photoCount_scl l hl]
  split
  · split
    · rfl
    · split
      · rfl
      · exact addNew_scl l s _ _ _ (photoSrc_scl l _ _ _)
  · rfl

/-! ## Impacts -/

theorem push_scl (l : K) (s : MPs K) (step : ℕ → Phase K → Phase K) : (s.scl l).push step = (s.push step).scl l := by
  have hp : ∀ i, (s.scl l).phase i = s.phase i := by
    intro i
    unfold MPs.phase
    rw [scl_arr_ne l s (by decide : Fld.vx ≠ .nel), scl_arr_ne l s (by decide : Fld.vy ≠ .nel),
      scl_arr_ne l s (by decide : Fld.vz ≠ .nel), scl_arr_ne l s (by decide : Fld.x ≠ .nel),
      scl_arr_ne l s (by decide : Fld.y ≠ .nel), scl_arr_ne l s (by decide : Fld.z ≠ .nel)]
  unfold MPs.push
  dsimp only
  rw [scl_nmp]
  split
  · apply MPs.ext' <;> try rfl
    funext f
    simp only [hp]
    cases f
    case nel => rfl
    all_goals simp only [scl_arr, map_sclFld l (by decide : Fld.x ≠ .nel), map_sclFld l (by decide : Fld.y ≠ .nel),
      map_sclFld l (by decide : Fld.z ≠ .nel), map_sclFld l (by decide : Fld.vx ≠ .nel),
      map_sclFld l (by decide : Fld.vy ≠ .nel), map_sclFld l (by decide : Fld.vz ≠ .nel), map_sclFld l (by decide : Fld.tl ≠ .nel)]
  · rfl

theorem positions_scl (l : K) (s : MPs K) : (s.scl l).positions = s.positions := by
  unfold MPs.positions
  rw [scl_arr_ne l s (by decide : Fld.x ≠ .nel), scl_arr_ne l s (by decide : Fld.y ≠ .nel),
    scl_arr_ne l s (by decide : Fld.z ≠ .nel), scl_nmp]

theorem impactMask_scl (l : K) (s : MPs K) (o : K → K → Bool) : (s.scl l).impactMask o = s.impactMask o := by
  unfold MPs.impactMask
  rw [scl_arr_ne l s (by decide : Fld.x ≠ .nel), scl_arr_ne l s (by decide : Fld.y ≠ .nel), scl_nmp]

/-- a macroparticle with its size multiplied -/
def sclRow (l : K) (p : Fld → K) : Fld → K := fun f => sclFld l f (p f)

theorem sclFld_zero (l : K) (f : Fld) : sclFld l f 0 = 0 := by simp [sclFld]

theorem rows_scl (l : K) (s : MPs K) : (s.scl l).rows = s.rows.map (sclRow l) := by
  unfold MPs.rows
  rw [scl_arr_ne l s (by decide : Fld.x ≠ .nel), List.map_map]
  apply List.map_congr_left
  intro i _
  funext f
  simp only [Function.comp, sclRow, scl_arr]
  rw [List.getD_eq_getElem?_getD, List.getD_eq_getElem?_getD, List.getElem?_map]
  cases (s.arr f)[i]? with
  | none => simp [sclFld_zero]
  | some v => rfl

theorem mkImpact_scl (l : K) (sq : K → K) (ke : K) (p : Fld → K) (h : Hit K) :
    mkImpact sq ke (sclRow l p) h = (mkImpact sq ke p h).scl l := rfl

theorem mapM_map' {α β γ : Type} (g : α → β) (F : β → Except PyErr γ) (a : List α) :
    (a.map g).mapM F = a.mapM (fun x => F (g x)) := by
  induction a with
  | nil => rfl
  | cons x a ih => simp only [List.map_cons, List.mapM_cons, ih]

theorem depositIf_scl (l : K) (b : Bool) (bias dx : K) (h : List K) (ps : List (K × K)) :
    depositIf b bias dx (h.map (l * ·)) (ps.map (sclW l)) = (depositIf b bias dx h ps).map (List.map (l * ·)) := by
  unfold depositIf
  split
  · exact computeHist_scl _ _ _ _ _
  · rfl

theorem segEnHists_scl (l dEn enMax : K) (imps : List (Impact K)) (k : ℕ) (ls : List (List K)) :
    segEnHists dEn enMax (imps.map (Impact.scl l)) k (ls.map (fun a => a.map (l * ·))) =
      (segEnHists dEn enMax imps k ls).map (List.map (fun a => a.map (l * ·))) := by
  induction ls generalizing k with
  | nil => rfl
  | cons a ls ih =>
    simp only [List.map_cons, segEnHists]
    have hf : (imps.map (Impact.scl l)).filter (fun i => decide (i.seg = (k : ℤ))) =
        (imps.filter (fun i => decide (i.seg = (k : ℤ)))).map (Impact.scl l) := by
      rw [List.filter_map]
      rfl
    rw [hf, List.length_map, List.map_map, ih,
      show (imps.filter (fun i => decide (i.seg = (k : ℤ)))).map ((fun i => (if enMax < i.en then enMax else i.en, i.nel)) ∘ Impact.scl l) =
        ((imps.filter (fun i => decide (i.seg = (k : ℤ)))).map (fun i => (if enMax < i.en then enMax else i.en, i.nel))).map (sclW l) by
          rw [List.map_map]; rfl, depositIf_scl]
    cases depositIf (decide (0 < (imps.filter (fun i => decide (i.seg = (k : ℤ)))).length)) 0 dEn a
        ((imps.filter (fun i => decide (i.seg = (k : ℤ)))).map (fun i => (if enMax < i.en then enMax else i.en, i.nel))) with
    | error e => rfl
    | ok a' =>
      cases segEnHists dEn enMax imps (k + 1) ls with
      | error e => rfl
      | ok ls' => rfl

theorem segEnHistsIf_scl (l : K) (b : Bool) (dEn enMax : K) (imps : List (Impact K)) (ls : List (List K)) :
    segEnHistsIf b dEn enMax (imps.map (Impact.scl l)) (ls.map (fun a => a.map (l * ·))) =
      (segEnHistsIf b dEn enMax imps ls).map (List.map (fun a => a.map (l * ·))) := by
  unfold segEnHistsIf
  split
  · exact segEnHists_scl _ _ _ _ _ _
  · rfl

theorem impactHists_scl (l : K) (c : ImpCfg K) (life : Bool) (tt : K) (tls : List K) (imps : List (Impact K)) (h : ImpHist K) :
    impactHists c life tt tls (imps.map (Impact.scl l)) (h.scl l) = (impactHists c life tt tls imps h).map (ImpHist.scl l) := by
  unfold impactHists
  have e1 : ((tls.zip (imps.map (Impact.scl l))).filter (fun q => decide (0 < q.1))).map (fun q => (tt - q.1, q.2.nel)) =
      (((tls.zip imps).filter (fun q => decide (0 < q.1))).map (fun q => (tt - q.1, q.2.nel))).map (sclW l) := by
    rw [List.zip_map_right, List.filter_map, List.map_map, List.map_map]
    rfl
  have e2 : ∀ (g : Impact K → K), (∀ i : Impact K, g (i.scl l) = g i) →
      (imps.map (Impact.scl l)).map (fun i => (g i, i.nel)) = (imps.map (fun i => (g i, i.nel))).map (sclW l) := by
    intro g hg
    rw [List.map_map, List.map_map]
    apply List.map_congr_left
    intro i _
    simp only [Function.comp, hg, sclW]
    rfl
  have e3 : ∀ (g : Impact K → K), (∀ i : Impact K, g (i.scl l) = g i) →
      (imps.map (Impact.scl l)).map (fun i => (i.x, i.nel * g i)) = (imps.map (fun i => (i.x, i.nel * g i))).map (sclW l) := by
    intro g hg
    rw [List.map_map, List.map_map]
    apply List.map_congr_left
    intro i _
    simp only [Function.comp, hg, sclW]
    show (i.x, l * i.nel * g i) = _
    rw [mul_assoc]
  have e4 : (imps.map (Impact.scl l)).map (fun i => (i.seg, i.nel)) = (imps.map (fun i => (i.seg, i.nel))).map (sclW l) := by
    rw [List.map_map, List.map_map]
    rfl
  have e5 : (imps.map (Impact.scl l)).map (fun i => (i.seg, i.nel * i.en)) = (imps.map (fun i => (i.seg, i.nel * i.en))).map (sclW l) := by
    rw [List.map_map, List.map_map]
    apply List.map_congr_left
    intro i _
    simp only [Function.comp, sclW]
    show (i.seg, l * i.nel * i.en) = _
    rw [mul_assoc]
  rw [e1, e2 (fun i => i.x) (fun _ => rfl), e3 (fun i => if c.scrubTh < i.en then 1 else 0) (fun _ => rfl),
    e3 (fun i => i.en) (fun _ => rfl), e2 (fun i => i.cth) (fun _ => rfl),
    e2 (fun i => if c.enMax < i.en then c.enMax else i.en) (fun _ => rfl), e4, e5]
  simp only [ImpHist.scl, List.length_map, depositIf_scl, deposit, computeHist_scl, segEnHistsIf_scl, updateSeg_scl]
  cases depositIf (life && decide (0 < (((tls.zip imps).filter (fun q => decide (0 < q.1)))).length)) 0 c.dtLife h.life
      (((tls.zip imps).filter (fun q => decide (0 < q.1))).map (fun q => (tt - q.1, q.2.nel))) with
  | error e => rfl
  | ok a1 =>
  cases computeHist c.biasX c.dxHist h.tot (imps.map (fun i => (i.x, i.nel))) with
  | error e => rfl
  | ok a2 =>
  cases computeHist c.biasX c.dxHist h.scrub (imps.map (fun i => (i.x, i.nel * (if c.scrubTh < i.en then 1 else 0)))) with
  | error e => rfl
  | ok a3 =>
  cases computeHist c.biasX c.dxHist h.energ (imps.map (fun i => (i.x, i.nel * i.en))) with
  | error e => rfl
  | ok a4 =>
  cases depositIf c.flagCos 0 c.cosW h.cos (imps.map (fun i => (i.cth, i.nel))) with
  | error e => rfl
  | ok a5 =>
  cases segEnHistsIf (c.flagSeg && c.flagEnSeg) c.dEn c.enMax imps h.segEnLines with
  | error e => rfl
  | ok a6 =>
  cases computeHist 0 c.dEn h.enLine (imps.map (fun i => (if c.enMax < i.en then c.enMax else i.en, i.nel))) with
  | error e => rfl
  | ok a7 =>
    simp only [Except.map, bind, Except.bind]
    congr 1
    simp only [ImpHist.scl, ImpHist.mk.injEq, true_and, and_true]
    constructor <;> split <;> rfl

theorem energy_scl (l : K) (sq : K → K) (ke : K) (e : Emit K) : (e.scl l).energy sq ke = e.energy sq ke := rfl

theorem emitHists_scl (l : K) (sq : K → K) (c : ImpCfg K) (es : List (Emit K)) (h : ImpHist K) :
    emitHists sq c (es.map (Emit.scl l)) (h.scl l) = (emitHists sq c es h).map (ImpHist.scl l) := by
  unfold emitHists
  have e1 : (es.map (Emit.scl l)).map (fun e => (e.x, -e.nel * e.energy sq c.ke)) =
      (es.map (fun e => (e.x, -e.nel * e.energy sq c.ke))).map (sclW l) := by
    rw [List.map_map, List.map_map]
    apply List.map_congr_left
    intro e _
    simp only [Function.comp, sclW, energy_scl]
    show (e.x, -(l * e.nel) * _) = _
    congr 1
    ring
  have e2 : (es.map (Emit.scl l)).map (fun e => (e.seg, -e.nel * e.energy sq c.ke)) =
      (es.map (fun e => (e.seg, -e.nel * e.energy sq c.ke))).map (sclW l) := by
    rw [List.map_map, List.map_map]
    apply List.map_congr_left
    intro e _
    simp only [Function.comp, sclW, energy_scl]
    show (e.seg, -(l * e.nel) * _) = _
    congr 1
    ring
  have e3 : (es.map (Emit.scl l)).map (fun e => (e.seg, e.nel)) = (es.map (fun e => (e.seg, e.nel))).map (sclW l) := by
    rw [List.map_map, List.map_map]
    rfl
  rw [e1, e2, e3]
  simp only [ImpHist.scl, deposit, computeHist_scl, updateSeg_scl]
  cases computeHist c.biasX c.dxHist h.energ (es.map (fun e => (e.x, -e.nel * e.energy sq c.ke))) with
  | error e => rfl
  | ok a =>
    simp only [Except.map, bind, Except.bind]
    congr 1
    simp only [ImpHist.scl, ImpHist.mk.injEq, true_and, and_true]
    constructor <;> split <;> rfl

theorem emit_fld_scl (l : K) (e : Emit K) (f : Fld) (hf : f ≠ .tl) : (e.scl l).fld f = sclFld l f (e.fld f) := by
  cases f <;> first | rfl | exact absurd rfl hf

theorem newSrc_scl (l : K) (new : List (Emit K)) (tt : K) (f : Fld) :
    newSrc (new.map (Emit.scl l)) tt f = (newSrc new tt f).map (sclFld l f) := by
  by_cases hf : f = .tl
  · subst hf
    rfl
  · have : ∀ n : List (Emit K), newSrc n tt f = .array (n.map (fun e => e.fld f)) := by
      intro n
      cases f <;> first | rfl | exact absurd rfl hf
    rw [this, this]
    simp only [Src.map, List.map_map]
    congr 1
    apply List.map_congr_left
    intro e _
    exact emit_fld_scl l e f hf

theorem sum_energy_scl (l : K) (sq : K → K) (ke : K) (es : List (Emit K)) :
    ((es.map (Emit.scl l)).map (fun e => e.energy sq ke * e.nel)).sum = l * (es.map (fun e => e.energy sq ke * e.nel)).sum := by
  rw [← sum_map_mul, List.map_map, List.map_map]
  congr 1
  apply List.map_congr_left
  intro e _
  simp only [Function.comp, energy_scl]
  show _ * (l * e.nel) = _
  ring

theorem addEmitted_scl (l : K) (sq : K → K) (c : ImpCfg K) (s : MPs K) (new : List (Emit K)) (tt : K) (h : ImpHist K) :
    addEmitted sq c (s.scl l) (new.map (Emit.scl l)) tt (h.scl l) =
      (addEmitted sq c s new tt h).map (fun r => (r.1.scl l, r.2.1.scl l, l * r.2.2)) := by
  unfold addEmitted
  rw [List.length_map, addNew_scl l s _ _ _ (newSrc_scl l new tt), emitHists_scl, sum_energy_scl]
  split
  · cases s.addNew new.length (newSrc new tt) with
    | error e => rfl
    | ok s2 =>
      cases emitHists sq c new h with
      | error e => rfl
      | ok h3 => rfl
  · simp [Except.map]

theorem replaceHits_scl (l : K) (s : MPs K) (mask : List Bool) (rep : List (Emit K)) (tt : K) :
    (s.scl l).replaceHits mask (rep.map (Emit.scl l)) tt = (s.replaceHits mask rep tt).scl l := by
  unfold MPs.replaceHits
  apply MPs.ext' <;> try rfl
  funext f
  change (if f = .tl then _ else _) = List.map (sclFld l f) (if f = .tl then _ else _)
  by_cases hf : f = .tl
  · subst hf
    rw [if_pos rfl, if_pos rfl, scl_arr, map_sclFld l (by decide), map_sclFld l (by decide)]
    rfl
  · rw [if_neg hf, if_neg hf, scl_arr, maskPut_map, List.map_map, List.map_map]
    congr 1
    apply List.map_congr_left
    intro e _
    exact emit_fld_scl l e f hf

theorem impactStep_scl (l : K) (hl : 0 < l) (sq : K → K) (c : ImpCfg K) (ch : Chamber K)
    (sey : K → List (Impact K) → Except PyErr (SeyOut K)) (hs : SeyLinear sey) (s : MPs K) (old : List (K × K × K)) (tt : K)
    (h : ImpHist K) : impactStep sq c ch sey (s.scl l) old tt (h.scl l) =
      (impactStep sq c ch sey s old tt h).map (fun r => (r.1.scl l, r.2.1.scl l, r.2.2.scl l)) := by
  unfold impactStep
  dsimp only
  have z : (⟨0, 0, 0, 0⟩ : ImpCount K) = ImpCount.scl l ⟨0, 0, 0, 0⟩ := by simp [ImpCount.scl]
  rw [scl_nmp, impactMask_scl, scl_life]
  split
  · split
    · split
      · rfl
      · rw [rows_scl, ← maskSel_map]
        generalize maskSel s.rows (s.impactMask ch.outside) = rows
        rw [List.zip_map_right, mapM_map']
        change (((maskSel old ((s.impactMask ch.outside).take s.nmp)).zip rows).mapM
          (fun q => ch.hit q.1 (q.2 .x, q.2 .y, q.2 .z)) >>= _) = _
        cases ((maskSel old ((s.impactMask ch.outside).take s.nmp)).zip rows).mapM
          (fun q => ch.hit q.1 (q.2 .x, q.2 .y, q.2 .z)) with
        | error e => rfl
        | ok hits =>
          have hi : ((rows.map (sclRow l)).zip hits).map (fun q => mkImpact sq c.ke q.1 q.2) =
              ((rows.zip hits).map (fun q => mkImpact sq c.ke q.1 q.2)).map (Impact.scl l) := by
            rw [List.zip_map_left, List.map_map, List.map_map]
            rfl
          have ht : (rows.map (sclRow l)).map (fun p => p .tl) = rows.map (fun p => p .tl) := by
            rw [List.map_map]
            rfl
          simp only [bind, Except.bind]
          rw [hi, ht, impactHists_scl]
          generalize (rows.zip hits).map (fun q => mkImpact sq c.ke q.1 q.2) = imps
          cases impactHists c s.lifetime tt (rows.map (fun p => p .tl)) imps h with
          | error e => rfl
          | ok h1 =>
            simp only [Except.map]
            rw [show (s.scl l).split = l * s.split from rfl, hs l hl]
            cases sey s.split imps with
            | error e => rfl
            | ok out =>
              simp only [Except.map, SeyOut.scl]
              rw [emitHists_scl]
              cases emitHists sq c out.replace h1 with
              | error e => rfl
              | ok h2 =>
                simp only [Except.map]
                rw [replaceHits_scl, addEmitted_scl]
                cases addEmitted sq c (s.replaceHits (s.impactMask ch.outside) out.replace tt) out.new tt h2 with
                | error e => rfl
                | ok r =>
                  simp only [Except.map, ImpCount.scl, sum_energy_scl, sum_map_mul, mul_add]
                  have a1 : ((imps.map (Impact.scl l)).map (fun i => i.nel)).sum = l * (imps.map (fun i => i.nel)).sum := by
                    rw [← sum_map_mul, List.map_map, List.map_map]
                    rfl
                  have a2 : ((imps.map (Impact.scl l)).map (fun i => i.en * i.nel)).sum = l * (imps.map (fun i => i.en * i.nel)).sum := by
                    rw [← sum_map_mul, List.map_map, List.map_map]
                    congr 1
                    apply List.map_congr_left
                    intro i _
                    show i.en * (l * i.nel) = l * (i.en * i.nel)
                    ring
                  rw [a1, a2]
    · conv_lhs => rw [z]
      rfl
  · conv_lhs => rw [z]
    rfl

/-! ## Whole simulations -/

theorem scl_get (l : K) (st : SimSt K) (i : ℕ) :
    (st.scl l).clouds[i]? = (st.clouds[i]?).map (fun c => { c with mps := c.mps.scl l }) := by
  simp [SimSt.scl]

theorem put_scl (l : K) (st : SimSt K) (i : ℕ) (m : MPs K) : (st.scl l).put i (m.scl l) = (st.put i m).scl l := by
  unfold SimSt.put SimSt.scl
  dsimp only
  congr 1
  apply List.ext_getElem?
  intro k
  simp only [List.getElem?_modify, List.getElem?_map]
  cases st.clouds[k]? with
  | none => rfl
  | some c =>
    simp only [Option.map_some, Option.map_eq_map]
    split <;> rfl

theorem onCloud_scl (l : K) (st : SimSt K) (i : ℕ) (f f' : MPs K → Except PyErr (MPs K))
    (h : ∀ m, f' (m.scl l) = (f m).map (MPs.scl l)) : (st.scl l).onCloud i f' = (st.onCloud i f).map (SimSt.scl l) := by
  unfold SimSt.onCloud
  rw [scl_get]
  cases st.clouds[i]? with
  | none => rfl
  | some c =>
    simp only [Option.map_some]
    rw [h]
    cases f c.mps with
    | error e => rfl
    | ok m =>
      simp only [Except.map]
      rw [put_scl]

theorem onCloud_cross (st st' : SimSt K) (i : ℕ) (f : MPs K → Except PyErr (MPs K)) (h : st.onCloud i f = .ok st') :
    st'.cross = st.cross := by
  obtain ⟨c, m, hc, hm, rfl⟩ := onCloud_spec _ _ _ _ h
  rfl

/-- emission model of an operation -/
def SimOp.linear : SimOp K → Prop
  | .track _ _ sey _ => SeyLinear sey
  | _ => True

theorem apply_cross_none (S : SimCfg K) (st st' : SimSt K) (op : SimOp K) (hc : st.cross = none) (h : op.apply S st = .ok st') :
    st'.cross = none := by
  cases op with
  | track i step sey tt =>
    simp only [SimOp.apply, SimSt.track] at h
    split at h
    · cases h
    · split at h
      · cases h
      · cases h
        exact hc
  | gas i lam dt sx sy xb yb d => exact (onCloud_cross _ _ _ _ h).trans hc
  | rays i lam dt u vel ends =>
    simp only [SimOp.apply] at h
    split at h
    · exact (onCloud_cross _ _ _ _ h).trans hc
    · cases h
      exact hc
  | segs i lam dt u vel seg r0 rounds =>
    simp only [SimOp.apply] at h
    split at h
    · exact (onCloud_cross _ _ _ _ h).trans hc
    · cases h
      exact hc
  | cross dt d =>
    simp only [SimOp.apply, hc] at h
    cases h
    exact hc
  | maintain i np sk sr d rs ra =>
    simp only [SimOp.apply] at h
    exact (onCloud_cross _ _ _ _ h).trans hc

theorem apply_scl (l : K) (hl : 0 < l) (S : SimCfg K) (st : SimSt K) (op : SimOp K) (hc : st.cross = none) (ho : op.linear) :
    op.apply (S.scl l) (st.scl l) = (op.apply S st).map (SimSt.scl l) := by
  cases op with
  | track i step sey tt =>
    simp only [SimOp.apply, SimSt.track]
    rw [scl_get]
    cases st.clouds[i]? with
    | none => rfl
    | some c =>
      simp only [Option.map_some]
      rw [push_scl, positions_scl, show (st.scl l).hists i = (st.hists i).scl l from rfl]
      rw [show (S.scl l).sq = S.sq from rfl, show (S.scl l).imp i = S.imp i from rfl, show (S.scl l).ch = S.ch from rfl,
        impactStep_scl l hl _ _ _ _ ho]
      cases impactStep S.sq (S.imp i) S.ch sey (c.mps.push step) c.mps.positions tt (st.hists i) with
      | error e => rfl
      | ok r =>
        simp only [Except.map]
        rw [put_scl]
        congr 1
        simp only [SimSt.scl, SimSt.mk.injEq, true_and, and_true]
        constructor
        · funext j
          by_cases hj : j = i
          · subst hj; simp
          · simp [hj]
        · funext j
          by_cases hj : j = i
          · subst hj; simp
          · simp [hj]
  | gas i lam dt sx sy xb yb d => exact onCloud_scl l st i _ _ (fun m => gas_scl l hl _ _ _ _ _ _ _ _ _ _ _ _ _ _)
  | rays i lam dt u vel ends =>
    simp only [SimOp.apply]
    rw [show (S.scl l).photo i = (S.photo i).scl l from rfl]
    cases S.photo i with
    | off => rfl
    | rays kc mean => exact onCloud_scl l st i _ _ (fun m => photo_scl l hl _ _ _ _ _ _ _ _ _)
    | segs kc mean g cdf => rfl
  | segs i lam dt u vel seg r0 rounds =>
    simp only [SimOp.apply]
    rw [show (S.scl l).photo i = (S.photo i).scl l from rfl]
    cases S.photo i with
    | off => rfl
    | rays kc mean => rfl
    | segs kc mean g cdf => exact onCloud_scl l st i _ _ (fun m => photoSeg_scl l hl _ _ _ _ _ _ _ _ _ _ _ _ _)
  | cross dt d =>
    simp only [SimOp.apply, hc]
    rfl
  | maintain i np sk sr d rs ra =>
    simp only [SimOp.apply]
    exact onCloud_scl l st i _ _ (fun m => maintenance_scl l hl _ _ _ _ _ _ _ _ _ _)

theorem simRun_scl (l : K) (hl : 0 < l) (S : SimCfg K) (ops : List (SimOp K)) (st : SimSt K) (hc : st.cross = none)
    (ho : ∀ op ∈ ops, op.linear) : simRun (S.scl l) ops (st.scl l) = (simRun S ops st).map (SimSt.scl l) ∧
      ∀ st', simRun S ops st = .ok st' → st'.cross = none := by
  induction ops generalizing st with
  | nil => exact ⟨rfl, by intro st' h; cases h; exact hc⟩
  | cons op ops ih =>
    simp only [simRun]
    rw [apply_scl l hl S st op hc (ho op (by simp))]
    cases ha : op.apply S st with
    | error e => exact ⟨rfl, by intro st' h; cases h⟩
    | ok st1 => exact ih st1 (apply_cross_none S st st1 op hc ha) (fun o h => ho o (by simp [h]))

theorem ops_scl (l : K) (S : SimCfg K) (inp : StepIn K) (n : ℕ) : inp.ops (S.scl l) n = inp.ops S n := by
  have : ∀ i, inp.primaryOps (S.scl l) i = inp.primaryOps S i := by
    intro i
    unfold StepIn.primaryOps
    rw [show (S.scl l).photo i = (S.photo i).scl l from rfl]
    cases S.photo i <;> rfl
  unfold StepIn.ops
  simp only [this]

theorem ops_linear (S : SimCfg K) (inp : StepIn K) (n : ℕ) (h : ∀ i, SeyLinear (inp.sey i)) : ∀ op ∈ inp.ops S n, op.linear := by
  intro op hop
  unfold StepIn.ops at hop
  simp only [List.mem_append, List.mem_flatMap, List.mem_cons, List.not_mem_nil, or_false, List.mem_map] at hop
  rcases hop with (⟨i, -, rfl | hp⟩ | rfl) | ⟨i, -, rfl⟩
  · exact h i
  · unfold StepIn.primaryOps at hp
    rcases List.mem_append.1 hp with hp | hp
    · split at hp
      · obtain ⟨k, hk, rfl⟩ := List.mem_mapIdx.1 hp
        trivial
      · simp at hp
    · dsimp only at hp
      cases hq : S.photo i <;> rw [hq] at hp <;> simp at hp <;> subst hp <;> trivial
  · trivial
  · trivial

end PyECLOUD
