import Verif.Lemmas.Mirror

/-!
# Lemmas: the mirror image of a simulation, impacts, sources and whole simulations
-/

set_option linter.unusedSectionVars false

namespace PyECLOUD

variable {K : Type} [Field K] [LinearOrder K] [IsStrictOrderedRing K] [FloorRing K]

/-! ## Impacts -/

/-- the impact step without its histograms -/
def impactBare (sq : K → K) (c : ImpCfg K) (ch : Chamber K)
    (sey : K → List (Impact K) → Except PyErr (SeyOut K)) (s : MPs K) (old : List (K × K × K)) (tt : K) :
    Except PyErr (MPs K × ImpCount K) :=
  if s.nmp > 0 then
    if countTrue (s.impactMask ch.outside) > 0 then
      if old.length ≠ s.nmp then .error .indexError
      else
        match ((maskSel old ((s.impactMask ch.outside).take s.nmp)).zip (maskSel s.rows (s.impactMask ch.outside))).mapM
          (fun q => ch.hit q.1 (q.2 .x, q.2 .y, q.2 .z)) with
        | .error e => .error e
        | .ok hits =>
          match sey s.split (((maskSel s.rows (s.impactMask ch.outside)).zip hits).map (fun q => mkImpact sq c.ke q.1 q.2)) with
          | .error e => .error e
          | .ok out =>
            match (if 0 < out.new.length then (s.replaceHits (s.impactMask ch.outside) out.replace tt).addNew out.new.length (newSrc out.new tt)
                else .ok (s.replaceHits (s.impactMask ch.outside) out.replace tt)) with
            | .error e => .error e
            | .ok s2 => .ok (s2, ⟨((((maskSel s.rows (s.impactMask ch.outside)).zip hits).map
                (fun q => mkImpact sq c.ke q.1 q.2)).map (fun i => i.nel)).sum, out.nelEmit.sum,
                ((((maskSel s.rows (s.impactMask ch.outside)).zip hits).map
                (fun q => mkImpact sq c.ke q.1 q.2)).map (fun i => i.en * i.nel)).sum,
                (out.replace.map (fun e => e.energy sq c.ke * e.nel)).sum +
                  (if 0 < out.new.length then (out.new.map (fun e => e.energy sq c.ke * e.nel)).sum else 0)⟩)
    else .ok (s, ⟨0, 0, 0, 0⟩)
  else .ok (s, ⟨0, 0, 0, 0⟩)

theorem impactStep_bare (sq : K → K) (c : ImpCfg K) (ch : Chamber K)
    (sey : K → List (Impact K) → Except PyErr (SeyOut K)) (s : MPs K) (old : List (K × K × K)) (tt : K) (h : ImpHist K)
    (r : MPs K × ImpHist K × ImpCount K) (hr : impactStep sq c ch sey s old tt h = .ok r) :
    impactBare sq c ch sey s old tt = .ok (r.1, r.2.2) := by
  unfold impactStep at hr
  unfold impactBare
  dsimp only at hr
  split at hr
  · rename_i h1
    rw [if_pos h1]
    split at hr
    · rename_i h2
      rw [if_pos h2]
      split at hr
      · cases hr
      · rename_i h3
        rw [if_neg h3]
        simp only [bind, Except.bind] at hr
        split at hr
        · cases hr
        · rename_i hits hh
          rw [hh]
          dsimp only
          split at hr
          · cases hr
          · split at hr
            · cases hr
            · rename_i out ho
              rw [ho]
              dsimp only
              split at hr
              · cases hr
              · split at hr
                · cases hr
                · rename_i q hq
                  cases hr
                  unfold addEmitted at hq
                  by_cases hn : 0 < out.new.length
                  · rw [if_pos hn] at hq
                    rw [if_pos hn, if_pos hn]
                    simp only [bind, Except.bind] at hq
                    split at hq
                    · cases hq
                    · rename_i s2 hs
                      rw [hs]
                      split at hq
                      · cases hq
                      · cases hq
                        rfl
                  · rw [if_neg hn] at hq
                    rw [if_neg hn, if_neg hn]
                    cases hq
                    rfl
    · rename_i h2
      rw [if_neg h2]
      cases hr
      rfl
  · rename_i h1
    rw [if_neg h1]
    cases hr
    rfl

/-- the mirror image of a row -/
def mirRow (m : Mirror K) (p : Fld → K) : Fld → K := fun f => m.sgn f * p f

theorem rows_mir (m : Mirror K) (s : MPs K) : (m.mps s).rows = s.rows.map (mirRow m) := by
  unfold MPs.rows
  rw [mir_len, List.map_map]
  apply List.map_congr_left
  intro i _
  funext f
  exact mir_getD m s f i

theorem impactMask_mir (m : Mirror K) (s : MPs K) (ch : Chamber K) :
    (m.mps s).impactMask (m.chamber ch).outside = s.impactMask ch.outside := by
  unfold MPs.impactMask
  rw [mir_len, mir_nmp]
  congr 1
  apply List.map_congr_left
  intro i _
  simp only [mir_getD, Mirror.sgn, Mirror.chamber, mul_self_cancel m.hx, mul_self_cancel m.hy]

theorem mkImpact_mir (m : Mirror K) (sq : K → K) (ke : K) (p : Fld → K) (h : Hit K) :
    mkImpact sq ke (mirRow m p) (m.hit h) = m.impact (mkImpact sq ke p h) := by
  have h1 : m.sx * p .vx * (m.sx * p .vx) = p .vx * p .vx := by linear_combination p .vx * p .vx * m.hx
  have h2 : m.sy * p .vy * (m.sy * p .vy) = p .vy * p .vy := by linear_combination p .vy * p .vy * m.hy
  have h3 : m.sz * p .vz * (m.sz * p .vz) = p .vz * p .vz := by linear_combination p .vz * p .vz * m.hz
  have h4 : m.sx * p .vx * (m.sx * h.nx) = p .vx * h.nx := by linear_combination p .vx * h.nx * m.hx
  have h5 : m.sy * p .vy * (m.sy * h.ny) = p .vy * h.ny := by linear_combination p .vy * h.ny * m.hy
  simp only [mkImpact, mirRow, Mirror.sgn, Mirror.hit, Mirror.impact, h1, h2, h3, h4, h5, one_mul]

theorem energy_mir (m : Mirror K) (sq : K → K) (ke : K) (e : Emit K) : (m.emit e).energy sq ke = e.energy sq ke := by
  have h1 : (m.sx * e.vx) ^ 2 = e.vx ^ 2 := by linear_combination e.vx ^ 2 * m.hx
  have h2 : (m.sy * e.vy) ^ 2 = e.vy ^ 2 := by linear_combination e.vy ^ 2 * m.hy
  have h3 : (m.sz * e.vz) ^ 2 = e.vz ^ 2 := by linear_combination e.vz ^ 2 * m.hz
  simp only [Emit.energy, Mirror.emit, h1, h2, h3]

theorem sum_energy_mir (m : Mirror K) (sq : K → K) (ke : K) (es : List (Emit K)) :
    ((es.map m.emit).map (fun e => e.energy sq ke * e.nel)).sum = (es.map (fun e => e.energy sq ke * e.nel)).sum := by
  rw [List.map_map]
  congr 1
  apply List.map_congr_left
  intro e _
  simp only [Function.comp, energy_mir]
  rfl

theorem emit_fld_mir (m : Mirror K) (e : Emit K) (f : Fld) : (m.emit e).fld f = m.sgn f * e.fld f := by
  cases f <;> simp [Emit.fld, Mirror.emit, Mirror.sgn]

theorem newSrc_mir (m : Mirror K) (new : List (Emit K)) (tt : K) (f : Fld) :
    newSrc (new.map m.emit) tt f = (newSrc new tt f).map (m.sgn f * ·) := by
  by_cases hf : f = .tl
  · subst hf
    simp [newSrc, Src.map, Mirror.sgn]
  · have : ∀ n : List (Emit K), newSrc n tt f = .array (n.map (fun e => e.fld f)) := by
      intro n
      cases f <;> first | rfl | exact absurd rfl hf
    rw [this, this]
    simp only [Src.map, List.map_map]
    congr 1
    apply List.map_congr_left
    intro e _
    exact emit_fld_mir m e f

theorem replaceHits_mir (m : Mirror K) (s : MPs K) (mask : List Bool) (rep : List (Emit K)) (tt : K) :
    (m.mps s).replaceHits mask (rep.map m.emit) tt = m.mps (s.replaceHits mask rep tt) := by
  unfold MPs.replaceHits
  apply MPs.ext' <;> try rfl
  funext f
  change (if f = .tl then _ else _) = List.map (m.sgn f * ·) (if f = .tl then _ else _)
  by_cases hf : f = .tl
  · subst hf
    rw [if_pos rfl, if_pos rfl, mir_tl, show (m.sgn .tl * · : K → K) = ((1 : K) * ·) from rfl, map_one_mul]
    rfl
  · rw [if_neg hf, if_neg hf, mir_arr, maskPut_map, List.map_map, List.map_map]
    congr 1
    apply List.map_congr_left
    intro e _
    exact emit_fld_mir m e f

theorem mapM_mir {α β : Type} (F : α → Except PyErr β) (g : β → β) (a : List α) :
    a.mapM (fun x => (F x).map g) = (a.mapM F).map (List.map g) := by
  induction a with
  | nil => rfl
  | cons x a ih =>
    rw [List.mapM_cons, List.mapM_cons, ih]
    cases F x with
    | error e => rfl
    | ok y =>
      cases a.mapM F with
      | error e => rfl
      | ok ys => rfl

theorem impactBare_mir (m : Mirror K) (sq : K → K) (c : ImpCfg K) (ch : Chamber K)
    (sey : K → List (Impact K) → Except PyErr (SeyOut K)) (s : MPs K) (old : List (K × K × K)) (tt : K) :
    impactBare sq c (m.chamber ch) (m.sey sey) (m.mps s) (old.map m.vec) tt =
      (impactBare sq c ch sey s old tt).map (fun r => (m.mps r.1, r.2)) := by
  unfold impactBare
  rw [impactMask_mir, mir_nmp, List.length_map]
  split
  · split
    · split
      · rfl
      · rw [rows_mir, ← maskSel_map, ← maskSel_map]
        generalize maskSel s.rows (s.impactMask ch.outside) = rows
        generalize maskSel old ((s.impactMask ch.outside).take s.nmp) = o
        rw [List.zip_map, mapM_map']
        have hh : (fun x : (K × K × K) × (Fld → K) => (m.chamber ch).hit (Prod.map m.vec (mirRow m) x).1
            ((Prod.map m.vec (mirRow m) x).2 .x, (Prod.map m.vec (mirRow m) x).2 .y, (Prod.map m.vec (mirRow m) x).2 .z)) =
            fun q => (ch.hit q.1 (q.2 .x, q.2 .y, q.2 .z)).map m.hit := by
          funext q
          simp only [Mirror.chamber, Prod.map]
          rw [mir_vec_vec, show (mirRow m q.2 .x, mirRow m q.2 .y, mirRow m q.2 .z) = m.vec (q.2 .x, q.2 .y, q.2 .z) from rfl,
            mir_vec_vec]
        rw [hh, mapM_mir]
        cases (o.zip rows).mapM (fun q => ch.hit q.1 (q.2 .x, q.2 .y, q.2 .z)) with
        | error e => rfl
        | ok hits =>
          simp only [Except.map]
          have hi : ((rows.map (mirRow m)).zip (hits.map m.hit)).map (fun q => mkImpact sq c.ke q.1 q.2) =
              ((rows.zip hits).map (fun q => mkImpact sq c.ke q.1 q.2)).map m.impact := by
            rw [List.zip_map, List.map_map, List.map_map]
            apply List.map_congr_left
            intro q _
            exact mkImpact_mir m sq c.ke q.1 q.2
          rw [hi]
          generalize (rows.zip hits).map (fun q => mkImpact sq c.ke q.1 q.2) = imps
          have hm : (imps.map m.impact).map m.impact = imps := by
            rw [List.map_map]
            conv_rhs => rw [← List.map_id imps]
            apply List.map_congr_left
            intro i _
            exact mir_impact_impact m i
          simp only [Mirror.sey, hm]
          rw [show (m.mps s).split = s.split from rfl]
          cases sey s.split imps with
          | error e => rfl
          | ok out =>
            simp only [Except.map, Mirror.seyOut, List.length_map]
            rw [replaceHits_mir, sum_energy_mir, sum_energy_mir, addNew_mir m _ _ _ _ (newSrc_mir m out.new tt)]
            have a1 : ((imps.map m.impact).map (fun i => i.nel)).sum = (imps.map (fun i => i.nel)).sum := by
              rw [List.map_map]
              rfl
            have a2 : ((imps.map m.impact).map (fun i => i.en * i.nel)).sum = (imps.map (fun i => i.en * i.nel)).sum := by
              rw [List.map_map]
              rfl
            rw [a1, a2]
            by_cases hn : 0 < out.new.length
            · simp only [if_pos hn]
              cases (s.replaceHits (s.impactMask ch.outside) out.replace tt).addNew out.new.length (newSrc out.new tt) with
              | error e => rfl
              | ok s2 => rfl
            · simp only [if_neg hn]
    · rfl
  · rfl

/-! ## Sources -/

theorem draw_true (s u : K) : Mirror.draw s true u - 1 / 2 = s * (u - 1 / 2) := by
  simp [Mirror.draw]

theorem gasGen_mir (m : Mirror K) (xa ya sx sy xb yb : K) (b : Bool) (u v : K) :
    gasGen xa ya sx sy (m.sx * xb) (m.sy * yb) b (Mirror.draw m.sx b u) (Mirror.draw m.sy b v) =
      m.pnt (gasGen xa ya sx sy xb yb b u v) := by
  cases b
  · simp only [gasGen, Mirror.draw, Mirror.pnt, Bool.false_eq_true, if_false, Prod.mk.injEq]
    constructor <;> ring
  · simp only [gasGen, Mirror.draw, Mirror.pnt, if_true, Prod.mk.injEq]
    constructor <;> ring

theorem rejectLoop_mir {α : Type} (m : Mirror K) (g : α → α) (outside outside' : K → K → Bool) (gen gen' : α → K → K → K × K)
    (ho : ∀ x y, outside' (m.sx * x) (m.sy * y) = outside x y)
    (rounds rounds' : List ((ℕ → K) × (ℕ → K))) (hl : rounds'.length = rounds.length) (pts : List (α × K × K))
    (hg : ∀ k < pts.length, ∀ p, (pts[k]?).map (fun q => q.1) = some p → ∀ (j : ℕ) r r', rounds[j]? = some r → rounds'[j]? = some r' →
      gen' (g p) (r'.1 k) (r'.2 k) = m.pnt (gen p (r.1 k) (r.2 k))) :
    rejectLoop outside' gen' rounds' (pts.map (fun p => (g p.1, m.pnt p.2))) =
      (rejectLoop outside gen rounds pts).map (List.map (fun p => (g p.1, m.pnt p.2))) := by
  induction rounds generalizing pts rounds' with
  | nil =>
    have : rounds' = [] := List.length_eq_zero_iff.1 hl
    subst this
    unfold rejectLoop
    have ha : (pts.map (fun p => (g p.1, m.pnt p.2))).all (fun p => !outside' p.2.1 p.2.2) = pts.all (fun p => !outside p.2.1 p.2.2) := by
      rw [List.all_map]
      congr 1
      funext p
      simp only [Function.comp, Mirror.pnt, ho]
    rw [ha]
    split <;> rfl
  | cons r rs ih =>
    match rounds', hl with
    | r' :: rs', hl =>
      have ha : (pts.map (fun p => (g p.1, m.pnt p.2))).all (fun p => !outside' p.2.1 p.2.2) = pts.all (fun p => !outside p.2.1 p.2.2) := by
        rw [List.all_map]
        congr 1
        funext p
        simp only [Function.comp, Mirror.pnt, ho]
      rw [rejectLoop, rejectLoop, ha]
      split
      · rfl
      · have hr : redraw outside' gen' (pts.map (fun p => (g p.1, m.pnt p.2))) r'.1 r'.2 =
            (redraw outside gen pts r.1 r.2).map (fun p => (g p.1, m.pnt p.2)) := by
          unfold redraw
          apply List.ext_getElem?
          intro k
          simp only [List.getElem?_mapIdx, List.getElem?_map]
          cases hk : pts[k]? with
          | none => rfl
          | some p =>
            have hkl : k < pts.length := (List.getElem?_eq_some_iff.1 hk).1
            simp only [Option.map_some, Mirror.pnt, ho]
            have := hg k hkl p.1 (by rw [hk]; rfl) 0 r r' rfl rfl
            by_cases hout : outside p.2.1 p.2.2 = true
            · rw [if_pos hout, if_pos hout]
              simp only [this]
              rfl
            · rw [if_neg hout, if_neg hout]
        rw [hr]
        refine ih rs' (by simpa using hl) _ (fun k hk p hp j q q' h1 h2 => ?_)
        have hlen : (redraw outside gen pts r.1 r.2).length = pts.length := by simp [redraw]
        have hlab : ((redraw outside gen pts r.1 r.2)[k]?).map (fun q => q.1) = (pts[k]?).map (fun q => q.1) := by
          simp only [redraw, List.getElem?_mapIdx]
          cases pts[k]? with
          | none => rfl
          | some p =>
            simp only [Option.map_some]
            split <;> rfl
        exact hg k (hlen ▸ hk) p (hlab ▸ hp) (j + 1) q q' (by simpa using h1) (by simpa using h2)

theorem gas_mir (m : Mirror K) (ch : Chamber K) (frac xa ya kIon v0 lam dt sx sy xb yb : K) (d : GasDraws K) (s : MPs K) :
    gasGenerate (m.chamber ch).outside frac xa ya kIon v0 lam dt sx sy (m.sx * xb) (m.sy * yb) (m.gasDraws frac d) (m.mps s) =
      (gasGenerate ch.outside frac xa ya kIon v0 lam dt sx sy xb yb d s).map m.mps := by
  unfold gasGenerate
  dsimp only
  rw [mir_ref, show (m.gasDraws frac d).u = d.u from rfl]
  by_cases hn : 0 < (stochRound (kIon * lam * dt / s.ref) d.u).toNat
  · rw [if_pos hn, if_pos hn]
    generalize (stochRound (kIon * lam * dt / s.ref) d.u).toNat = n
    have hp : (List.range n).map (fun i => (decide ((m.gasDraws frac d).kind i < frac),
        gasGen xa ya sx sy (m.sx * xb) (m.sy * yb) (decide ((m.gasDraws frac d).kind i < frac)) ((m.gasDraws frac d).x0 i)
          ((m.gasDraws frac d).y0 i))) =
        ((List.range n).map (fun i => (decide (d.kind i < frac), gasGen xa ya sx sy xb yb (decide (d.kind i < frac)) (d.x0 i)
          (d.y0 i)))).map (fun p => (id p.1, m.pnt p.2)) := by
      rw [List.map_map]
      apply List.map_congr_left
      intro i _
      exact congrArg (Prod.mk _) (gasGen_mir m xa ya sx sy xb yb _ _ _)
    rw [hp, rejectLoop_mir m id ch.outside (m.chamber ch).outside (gasGen xa ya sx sy xb yb)
      (gasGen xa ya sx sy (m.sx * xb) (m.sy * yb))
      (fun x y => by simp only [Mirror.chamber, mul_self_cancel m.hx, mul_self_cancel m.hy]) d.rounds (m.gasDraws frac d).rounds
      (by simp [Mirror.gasDraws]) _ (fun k hk p hp' j r r' h1 h2 => by
        simp only [List.length_map, List.length_range] at hk
        simp only [List.getElem?_map, List.getElem?_range hk, Option.map_some, Option.some.injEq] at hp'
        subst hp'
        simp only [Mirror.gasDraws, List.getElem?_map, h1, Option.map_some, Option.some.injEq] at h2
        subst h2
        exact gasGen_mir m _ _ _ _ _ _ _ _ _)]
    cases rejectLoop ch.outside (gasGen xa ya sx sy xb yb) d.rounds ((List.range n).map (fun i => (decide (d.kind i < frac),
        gasGen xa ya sx sy xb yb (decide (d.kind i < frac)) (d.x0 i) (d.y0 i)))) with
    | error e => rfl
    | ok pts =>
      refine addNew_mir m s _ _ _ (fun f => ?_)
      have hd : ∀ t r : K, v0 * (Mirror.draw t true r - 1 / 2) = t * (v0 * (r - 1 / 2)) := by
        intro t r
        rw [draw_true]
        ring
      cases f <;> simp only [gasSrc, Src.map, List.map_map, Function.comp_def, Mirror.sgn, Mirror.pnt, Mirror.gasDraws, hd, one_mul,
        mul_zero, mir_ref]
  · rw [if_neg hn, if_neg hn]
    rfl

theorem photoSrc_mir (m : Mirror K) (ref : K) (hits : List (Hit K)) (vel : List (K × K × K)) (f : Fld) :
    photoSrc ref (hits.map m.hit) (vel.map m.vec) f = (photoSrc ref hits vel f).map (m.sgn f * ·) := by
  cases f <;> simp only [photoSrc, Src.map, List.map_map, Function.comp_def, Mirror.sgn, Mirror.hit, Mirror.vec, one_mul, mul_zero]

theorem mapIdx_mir {α β : Type} (g : α → α) (h : β → β) (F F' : ℕ → α → β) (hF : ∀ k a, F' k (g a) = h (F k a)) (l : List α) :
    (l.map g).mapIdx F' = (l.mapIdx F).map h := by
  apply List.ext_getElem?
  intro k
  simp only [List.getElem?_mapIdx, List.getElem?_map]
  cases l[k]? with
  | none => rfl
  | some a => simp only [Option.map_some, hF]

theorem mapIdx_mir' {α β γ : Type} (g : α → α) (h : β → γ) (F : ℕ → α → β) (F' : ℕ → α → γ) (hF : ∀ k a, F' k (g a) = h (F k a))
    (l : List α) : (l.map g).mapIdx F' = (l.mapIdx F).map h := by
  apply List.ext_getElem?
  intro k
  simp only [List.getElem?_mapIdx, List.getElem?_map]
  cases l[k]? with
  | none => rfl
  | some a => simp only [Option.map_some, hF]

theorem photo_mir (m : Mirror K) (ch : Chamber K) (vel : ℕ → Hit K → K × K × K) (ends : ℕ → (K × K) × (K × K)) (kc : K)
    (mean : Option K) (lam dt u : K) (s : MPs K) :
    photoGenerate (m.chamber ch) (fun k h => m.vec (vel k (m.hit h))) (fun k => (m.pnt (ends k).1, m.pnt (ends k).2)) kc mean lam dt u
      (m.mps s) = (photoGenerate ch vel ends kc mean lam dt u s).map m.mps := by
  unfold photoGenerate
  dsimp only
  rw [mir_ref]
  split
  · generalize (photoCount kc mean lam dt s.ref u).toNat = n
    unfold photoSet
    rw [show (List.range n).map (fun k => (m.pnt (ends k).1, m.pnt (ends k).2)) =
      ((List.range n).map ends).map (fun q => (m.pnt q.1, m.pnt q.2)) by rw [List.map_map]; rfl, mapM_map']
    have hh : (fun x : (K × K) × (K × K) => (m.chamber ch).hit ((m.pnt x.1, m.pnt x.2).1.1, (m.pnt x.1, m.pnt x.2).1.2, 0)
        ((m.pnt x.1, m.pnt x.2).2.1, (m.pnt x.1, m.pnt x.2).2.2, 0)) =
        fun q => (ch.hit (q.1.1, q.1.2, 0) (q.2.1, q.2.2, 0)).map m.hit := by
      funext q
      simp only [Mirror.chamber, Mirror.vec, Mirror.pnt, mul_self_cancel m.hx, mul_self_cancel m.hy, mul_zero]
    rw [hh, mapM_mir]
    cases ((List.range n).map ends).mapM (fun q => ch.hit (q.1.1, q.1.2, 0) (q.2.1, q.2.2, 0)) with
    | error e => rfl
    | ok hits =>
      simp only [Except.map, List.length_map]
      rw [mir_ref, mapIdx_mir m.hit m.vec vel _ (fun k a => by rw [mir_hit_hit])]
      exact addNew_mir m s _ _ _ (photoSrc_mir m _ _ _)
  · rfl

/-- the segment of a number -/
def segGet (segs : List (PhSeg K)) (b : ℕ) : Except PyErr (PhSeg K) :=
  match segs[b]? with
  | some g => .ok g
  | none => .error .indexError

theorem segGet_mir (m : Mirror K) (segs : List (PhSeg K)) : segGet (segs.map m.seg) = fun b => (segGet segs b).map m.seg := by
  funext b
  unfold segGet
  rw [List.getElem?_map]
  cases segs[b]? <;> rfl

theorem photoSegGenerate_eq (outside : K → K → Bool) (segs : List (PhSeg K)) (cdf : List K) (vel : ℕ → PhSeg K → K × K × K)
    (kc : K) (mean : Option K) (lam dt u : K) (seg r0 : ℕ → K) (rounds : List (ℕ → K)) (s : MPs K) :
    photoSegGenerate outside segs cdf vel kc mean lam dt u seg r0 rounds s =
      if 0 < photoCount kc mean lam dt s.ref u then
        match (((List.range (photoCount kc mean lam dt s.ref u).toNat).map (fun i => cdfBin cdf (seg i))).insertionSort (· ≤ ·)).mapM
            (segGet segs) with
        | .error e => .error e
        | .ok gs =>
          match phPoints outside (fun i => gs.getD i ⟨0, 0, 0, 0, 0, 0⟩) (photoCount kc mean lam dt s.ref u).toNat r0 rounds with
          | .error e => .error e
          | .ok pts => s.addNew pts.length (fun f => photoSrc s.ref
              (pts.map (fun p => (⟨p.2.1, p.2.2, 0, p.1.nx, p.1.ny, 0⟩ : Hit K))) (pts.mapIdx (fun i p => vel i p.1)) f)
      else .ok s := rfl

theorem photoSeg_mir (m : Mirror K) (ch : Chamber K) (segs : List (PhSeg K)) (cdf : List K)
    (vel : ℕ → PhSeg K → K × K × K) (kc : K) (mean : Option K) (lam dt u : K) (seg r0 : ℕ → K) (rounds : List (ℕ → K))
    (s : MPs K) :
    photoSegGenerate (m.chamber ch).outside (segs.map m.seg) cdf (fun k g => m.vec (vel k (m.seg g))) kc mean lam dt u seg r0 rounds
      (m.mps s) = (photoSegGenerate ch.outside segs cdf vel kc mean lam dt u seg r0 rounds s).map m.mps := by
  rw [photoSegGenerate_eq, photoSegGenerate_eq, mir_ref]
  split
  · generalize (photoCount kc mean lam dt s.ref u).toNat = n
    rw [segGet_mir, mapM_mir]
    cases (((List.range n).map (fun i => cdfBin cdf (seg i))).insertionSort (· ≤ ·)).mapM (segGet segs) with
    | error e => rfl
    | ok gs =>
      simp only [Except.map]
      have hz : ∀ i, (gs.map m.seg).getD i ⟨0, 0, 0, 0, 0, 0⟩ = m.seg (gs.getD i ⟨0, 0, 0, 0, 0, 0⟩) := by
        intro i
        rw [List.getD_eq_getElem?_getD, List.getD_eq_getElem?_getD, List.getElem?_map]
        cases gs[i]? with
        | none => simp [Mirror.seg]
        | some g => rfl
      obtain ⟨sf, hsf⟩ : ∃ sf : ℕ → PhSeg K, ∀ i, gs.getD i ⟨0, 0, 0, 0, 0, 0⟩ = sf i := ⟨_, fun _ => rfl⟩
      simp only [hz, hsf]
      unfold phPoints
      dsimp only
      have hgen : ∀ (g : PhSeg K) (r : K), ((m.seg g).x0 + r * (m.seg g).dx, (m.seg g).y0 + r * (m.seg g).dy) =
          m.pnt (g.x0 + r * g.dx, g.y0 + r * g.dy) := by
        intro g r
        simp only [Mirror.seg, Mirror.pnt, Prod.mk.injEq]
        constructor <;> ring
      rw [show (List.range n).map (fun i => (m.seg (sf i), (m.seg (sf i)).x0 + r0 i * (m.seg (sf i)).dx,
          (m.seg (sf i)).y0 + r0 i * (m.seg (sf i)).dy)) =
          ((List.range n).map (fun i => (sf i, (sf i).x0 + r0 i * (sf i).dx, (sf i).y0 + r0 i * (sf i).dy))).map
            (fun p => (m.seg p.1, m.pnt p.2)) by
        rw [List.map_map]
        apply List.map_congr_left
        intro i _
        simp only [Function.comp, hgen],
        rejectLoop_mir m m.seg ch.outside (m.chamber ch).outside (fun g r _ => (g.x0 + r * g.dx, g.y0 + r * g.dy)) _
          (fun x y => by simp only [Mirror.chamber, mul_self_cancel m.hx, mul_self_cancel m.hy]) (rounds.map (fun r => (r, r)))
          (rounds.map (fun r => (r, r))) rfl _ (fun k hk p hp' j r r' h1 h2 => by
            rw [h1] at h2
            cases h2
            exact hgen p _)]
      cases rejectLoop ch.outside (fun (g : PhSeg K) r _ => (g.x0 + r * g.dx, g.y0 + r * g.dy)) (rounds.map (fun r => (r, r)))
          ((List.range n).map (fun i => (sf i, (sf i).x0 + r0 i * (sf i).dx, (sf i).y0 + r0 i * (sf i).dy))) with
      | error e => rfl
      | ok pts =>
        simp only [Except.map, List.length_map]
        refine addNew_mir m s _ _ _ (fun f => ?_)
        rw [← photoSrc_mir]
        congr 1
        · rw [List.map_map, List.map_map]
          apply List.map_congr_left
          intro p _
          simp only [Function.comp, Mirror.hit, Mirror.pnt, Mirror.seg, mul_zero]
        · exact mapIdx_mir (fun p : PhSeg K × K × K => (m.seg p.1, m.pnt p.2)) m.vec (fun i p => vel i p.1) _
            (fun k a => by simp only [mir_seg_seg]) pts
  · rfl

theorem maintenance_mir (m : Mirror K) (s : MPs K) (np sk sr : Bool) (full : FullCfg K) (cfg : RegenCfg) (fuel : ℕ)
    (d : FullDraws K) (rs ra : ℕ → K)
    (ht : (np && !sr) = true → full.trigger (if np && !sk then s.clean else s) = false) :
    (m.mps s).maintenance np sk sr full cfg fuel d rs ra = (s.maintenance np sk sr full cfg fuel d rs ra).map m.mps := by
  unfold MPs.maintenance
  dsimp only
  rw [clean_mir, show (if (np && !sk) = true then m.mps s.clean else m.mps s) =
    m.mps (if (np && !sk) = true then s.clean else s) by split <;> rfl]
  revert ht
  generalize (if (np && !sk) = true then s.clean else s) = s1
  intro ht
  by_cases hr : (np && !sr) = true
  · have t1 := ht hr
    have t2 : full.trigger (m.mps s1) = false := t1
    rw [if_pos hr, if_pos hr]
    unfold MPs.checkRegen
    rw [t1, t2]
    simp only [Bool.false_eq_true, if_false, Except.map]
    rw [checkSoft_mir, checkAsync_mir]
  · rw [if_neg hr, if_neg hr]
    simp only [Except.map]
    rw [checkAsync_mir]

/-! ## Whole simulations -/

theorem image_get (m : Mirror K) (st st' : SimSt K) (h : m.Image st st') (i : ℕ) :
    st'.clouds[i]? = (st.clouds[i]?).map (fun c => { c with mps := m.mps c.mps }) := by
  rw [h.1, List.getElem?_map]

theorem put_image (m : Mirror K) (st st' : SimSt K) (h : m.Image st st') (i : ℕ) (s : MPs K) :
    (st'.put i (m.mps s)).clouds = (st.put i s).clouds.map (fun c => { c with mps := m.mps c.mps }) := by
  unfold SimSt.put
  dsimp only
  rw [h.1]
  apply List.ext_getElem?
  intro k
  simp only [List.getElem?_modify, List.getElem?_map]
  cases st.clouds[k]? with
  | none => rfl
  | some c =>
    simp only [Option.map_some, Option.map_eq_map]
    split <;> rfl

theorem onCloud_image (m : Mirror K) (st st' st1 st1' : SimSt K) (h : m.Image st st') (i : ℕ) (f f' : MPs K → Except PyErr (MPs K))
    (hf : ∀ c, st.clouds[i]? = some c → f' (m.mps c.mps) = (f c.mps).map m.mps) (h1 : st.onCloud i f = .ok st1)
    (h2 : st'.onCloud i f' = .ok st1') : m.Image st1 st1' := by
  obtain ⟨c, a, hc, ha, rfl⟩ := onCloud_spec _ _ _ _ h1
  obtain ⟨c', a', hc', ha', rfl⟩ := onCloud_spec _ _ _ _ h2
  rw [image_get m st st' h, hc] at hc'
  cases hc'
  dsimp only at ha'
  rw [hf c hc, ha] at ha'
  cases ha'
  exact ⟨put_image m st st' h i a, h.2.1, h.2.2.1, h.2.2.2⟩

/-- the mirror image of an operation; `photo` are the settings of the photoemission -/
def Mirror.op (m : Mirror K) (S : SimCfg K) : SimOp K → SimOp K
  | .track i step sey tt => .track i (fun k p => m.phase (step k (m.phase p))) (m.sey sey) tt
  | .gas i lam dt sx sy xb yb d => .gas i lam dt sx sy (m.sx * xb) (m.sy * yb) (m.gasDraws (S.gas i).unifFrac d)
  | .rays i lam dt u vel ends => .rays i lam dt u (fun k h => m.vec (vel k (m.hit h))) (fun k => (m.pnt (ends k).1, m.pnt (ends k).2))
  | .segs i lam dt u vel seg r0 rounds => .segs i lam dt u (fun k g => m.vec (vel k (m.seg g))) seg r0 rounds
  | .cross dt d => .cross dt d
  | .maintain i np sk sr d rs ra => .maintain i np sk sr d rs ra

theorem apply_image (m : Mirror K) (S : SimCfg K) (st st' st1 st1' : SimSt K) (h : m.Image st st') (op : SimOp K)
    (hn : op.noRebuild S st) (h1 : op.apply S st = .ok st1) (h2 : (m.op S op).apply (m.cfg S) st' = .ok st1') : m.Image st1 st1' := by
  cases op with
  | track i step sey tt =>
    simp only [Mirror.op, SimOp.apply, SimSt.track] at h1 h2
    rw [image_get m st st' h] at h2
    cases hc : st.clouds[i]? with
    | none => rw [hc] at h1; cases h1
    | some c =>
      rw [hc] at h1 h2
      simp only [Option.map_some] at h1 h2
      split at h1
      · cases h1
      · rename_i a hh n he
        split at h2
        · cases h2
        · rename_i a' hh' n' he'
          have b1 := impactStep_bare _ _ _ _ _ _ _ _ _ he
          have b2 := impactStep_bare _ _ _ _ _ _ _ _ _ he'
          rw [push_mir m c.mps step _ (fun k _ => by rw [mir_phase_phase]), positions_mir,
            show (m.cfg S).ch = m.chamber S.ch from rfl, show (m.cfg S).sq = S.sq from rfl,
            show (m.cfg S).imp i = S.imp i from rfl, impactBare_mir, b1] at b2
          simp only [Except.map, Except.ok.injEq, Prod.mk.injEq] at b2
          obtain ⟨rfl, rfl⟩ := b2
          cases h1
          cases h2
          exact ⟨put_image m st st' h i a, by simp only [h.2.1], h.2.2.1, h.2.2.2⟩
  | gas i lam dt sx sy xb yb d =>
    exact onCloud_image m st st' st1 st1' h i _ _ (fun c _ => gas_mir m S.ch _ _ _ _ _ _ _ _ _ _ _ _ _) h1 h2
  | rays i lam dt u vel ends =>
    simp only [Mirror.op, SimOp.apply] at h1 h2
    rw [show (m.cfg S).photo i = m.photo (S.photo i) from rfl] at h2
    cases hq : S.photo i with
    | off => rw [hq] at h1 h2; cases h1; cases h2; exact h
    | rays kc mean =>
      rw [hq] at h1 h2
      exact onCloud_image m st st' st1 st1' h i _ _ (fun c _ => photo_mir m S.ch _ _ _ _ _ _ _ _) h1 h2
    | segs kc mean g cdf => rw [hq] at h1 h2; cases h1; cases h2; exact h
  | segs i lam dt u vel seg r0 rounds =>
    simp only [Mirror.op, SimOp.apply] at h1 h2
    rw [show (m.cfg S).photo i = m.photo (S.photo i) from rfl] at h2
    cases hq : S.photo i with
    | off => rw [hq] at h1 h2; cases h1; cases h2; exact h
    | rays kc mean => rw [hq] at h1 h2; cases h1; cases h2; exact h
    | segs kc mean g cdf =>
      rw [hq] at h1 h2
      exact onCloud_image m st st' st1 st1' h i _ _ (fun c _ => photoSeg_mir m S.ch _ _ _ _ _ _ _ _ _ _ _ _) h1 h2
  | cross dt d =>
    simp only [Mirror.op, SimOp.apply, h.2.2.1, h.2.2.2] at h1 h2
    cases h1
    cases h2
    exact h
  | maintain i np sk sr d rs ra =>
    simp only [Mirror.op, SimOp.apply] at h1 h2
    exact onCloud_image m st st' st1 st1' h i _ _ (fun c hc => maintenance_mir m c.mps np sk sr _ _ _ _ _ _ (hn c hc)) h1 h2

theorem simRun_image (m : Mirror K) (S : SimCfg K) (ops : List (SimOp K)) (st st' st1 st1' : SimSt K) (h : m.Image st st')
    (hn : noRebuildOps S ops st) (h1 : simRun S ops st = .ok st1) (h2 : simRun (m.cfg S) (ops.map (m.op S)) st' = .ok st1') :
    m.Image st1 st1' := by
  induction ops generalizing st st' with
  | nil =>
    cases h1
    cases h2
    exact h
  | cons op ops ih =>
    simp only [List.map_cons, simRun] at h1 h2
    split at h1
    · cases h1
    · rename_i a ha
      split at h2
      · cases h2
      · rename_i b hb
        exact ih a b (apply_image m S st st' a b h op hn.1 ha hb) (hn.2 a ha) h1 h2

theorem primaryOps_image (m : Mirror K) (S : SimCfg K) (inp : StepIn K) (i : ℕ) :
    (m.step S inp).primaryOps (m.cfg S) i = (inp.primaryOps S i).map (m.op S) := by
  unfold StepIn.primaryOps
  rw [List.map_append]
  congr 1
  · show (if inp.tt < (S.gas i).tIon ∧ (S.gas i).on = true then _ else _) = _
    split
    · rw [show (m.step S inp).main :: (m.step S inp).secs = (inp.main :: inp.secs).map m.beam from rfl]
      exact mapIdx_mir' m.beam (m.op S) _ _ (fun k a => rfl) _
    · rfl
  · have hl : (m.step S inp).main.lam + ((m.step S inp).secs.map (fun b => b.lam)).sum = inp.main.lam + (inp.secs.map (fun b => b.lam)).sum := by
      simp only [Mirror.step, List.map_map]
      rfl
    dsimp only
    rw [hl, show (m.cfg S).photo i = m.photo (S.photo i) from rfl]
    cases S.photo i <;> rfl

theorem ops_image (m : Mirror K) (S : SimCfg K) (inp : StepIn K) (n : ℕ) :
    (m.step S inp).ops (m.cfg S) n = (inp.ops S n).map (m.op S) := by
  unfold StepIn.ops
  simp only [List.map_append, List.map_flatMap, List.map_cons, List.map_nil, List.map_map, primaryOps_image]
  rfl

theorem image_length (m : Mirror K) (st st' : SimSt K) (h : m.Image st st') : st'.clouds.length = st.clouds.length := by
  rw [h.1, List.length_map]

theorem simulate_image (m : Mirror K) (S : SimCfg K) (steps : List (StepIn K)) (st st' st1 st1' : SimSt K) (h : m.Image st st')
    (hn : noRebuild S steps st) (h1 : simulate S steps st = .ok st1)
    (h2 : simulate (m.cfg S) (steps.map (m.step S)) st' = .ok st1') : m.Image st1 st1' := by
  induction steps generalizing st st' with
  | nil =>
    cases h1
    cases h2
    exact h
  | cons inp l ih =>
    simp only [List.map_cons, simulate] at h1 h2
    split at h1
    · cases h1
    · rename_i a ha
      split at h2
      · cases h2
      · rename_i b hb
        refine ih a b ?_ (hn.2 a ha) h1 h2
        unfold simTimeStep at ha hb
        rw [image_length m st st' h, ops_image] at hb
        exact simRun_image m S _ st st' a b h hn.1 ha hb

end PyECLOUD
