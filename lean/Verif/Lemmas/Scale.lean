import Verif.Spec.Scale
import Verif.Lemmas.Regen
import Verif.Lemmas.Impact
import Verif.Lemmas.Sey
import Mathlib.Tactic.Ring
import Mathlib.Tactic.FieldSimp
import Mathlib.Tactic.Linarith

/-!
# Lemmas: multiplying all charges by a factor
-/

set_option linter.unusedSectionVars false

namespace PyECLOUD

variable {K : Type} [Field K] [LinearOrder K] [IsStrictOrderedRing K]

theorem setPrefix_map' {α β : Type} (g : α → β) (a b : List α) : setPrefix (a.map g) (b.map g) = (setPrefix a b).map g := by
  simp [setPrefix]

theorem zeroTail_map' (l : K) (a : List K) (n : ℕ) : zeroTail (a.map (l * ·)) n = (zeroTail a n).map (l * ·) := by
  simp [zeroTail, List.map_take]

theorem sclFld_nel (l : K) : sclFld l .nel = (l * ·) := by
  funext v; simp [sclFld]

theorem sclFld_of_ne (l : K) {f : Fld} (h : f ≠ .nel) : sclFld l f = id := by
  funext v; simp [sclFld, h]

theorem map_sclFld (l : K) {f : Fld} (h : f ≠ .nel) (a : List K) : a.map (sclFld l f) = a := by
  rw [sclFld_of_ne l h, List.map_id]

theorem scl_arr (l : K) (s : MPs K) (f : Fld) : (s.scl l).arr f = (s.arr f).map (sclFld l f) := rfl

theorem scl_arr_ne (l : K) (s : MPs K) {f : Fld} (h : f ≠ .nel) : (s.scl l).arr f = s.arr f := map_sclFld l h _

theorem scl_nmp (l : K) (s : MPs K) : (s.scl l).nmp = s.nmp := rfl
theorem scl_life (l : K) (s : MPs K) : (s.scl l).lifetime = s.lifetime := rfl
theorem scl_ref (l : K) (s : MPs K) : (s.scl l).ref = l * s.ref := rfl
theorem scl_ref0 (l : K) (s : MPs K) : (s.scl l).ref0 = l * s.ref0 := rfl

theorem scl_arr_nel (l : K) (s : MPs K) : (s.scl l).arr .nel = (s.arr .nel).map (l * ·) := by
  rw [scl_arr, sclFld_nel]

theorem sum_map_mul (l : K) (a : List K) : (a.map (l * ·)).sum = l * a.sum := by
  induction a with
  | nil => simp
  | cons v a ih => simp [ih, mul_add]

theorem MPs.ext' {s t : MPs K} (h1 : s.arr = t.arr) (h2 : s.nmp = t.nmp) (h3 : s.ref = t.ref) (h4 : s.split = t.split)
    (h5 : s.clTh = t.clTh) (h6 : s.ref0 = t.ref0) (h7 : s.factSplit = t.factSplit) (h8 : s.factClean = t.factClean)
    (h9 : s.lifetime = t.lifetime) : s = t := by
  cases s; cases t; simp_all

theorem setRef_scl (l v : K) (s : MPs K) : (s.scl l).setRef (l * v) = (s.setRef v).scl l := by
  apply MPs.ext' <;> first | rfl | (simp only [MPs.setRef, MPs.scl]; ring)

theorem compact_scl (l : K) (s : MPs K) (keep : List Bool) (b : Bool) : (s.scl l).compact keep b = (s.compact keep b).scl l := by
  apply MPs.ext' <;> try rfl
  funext f
  rw [scl_arr]
  cases f <;> simp only [MPs.compact, scl_arr]
  case nel => rw [sclFld_nel, ← maskSel_map, setPrefix_map', zeroTail_map']
  case tl =>
    split
    · rw [← maskSel_map, setPrefix_map']
    · rfl
  all_goals rw [← maskSel_map, setPrefix_map']

theorem clean_scl (l : K) (hl : 0 < l) (s : MPs K) : (s.scl l).clean = s.clean.scl l := by
  unfold MPs.clean
  dsimp only
  have hm : ((s.scl l).arr .nel).map (fun v => !decide (v < (s.scl l).clTh)) = (s.arr .nel).map (fun v => !decide (v < s.clTh)) := by
    rw [scl_arr_nel, List.map_map]
    apply List.map_congr_left
    intro v _
    simp only [Function.comp, MPs.scl, mul_lt_mul_iff_right₀ hl]
  rw [hm, compact_scl, scl_nmp, scl_nmp, scl_life, scl_ref0]
  split
  · exact setRef_scl l _ _
  · rfl

theorem newRef_scl (l : K) (hl : 0 < l) (s : MPs K) (n : ℕ) : (s.scl l).newRef n = l * s.newRef n := by
  unfold MPs.newRef
  rw [scl_arr_nel, sum_map_mul]
  show (if l * _ / _ < l * s.ref0 then l * s.ref0 else _) = _
  dsimp only
  simp only [mul_div_assoc, mul_lt_mul_iff_right₀ hl]
  split <;> rfl

theorem softRegen_scl (l : K) (hl : 0 < l) (s : MPs K) (n : ℕ) (r : ℕ → K) : (s.scl l).softRegen n r = (s.softRegen n r).scl l := by
  have key : ∀ s : MPs K, s.softRegen n r = if s.nmp > n then
      (let s2 := (s.setRef (s.newRef n)).compact ((List.range s.nmp).map (fun i => decide
          (((s.nmp : K) - (n : K)) / (s.nmp : K) < r i)) ++ List.replicate ((s.arr .x).length - s.nmp) false) s.lifetime
       { s2 with arr := fun f => if f = .nel then setPrefix (s2.arr .nel) (((s2.arr .nel).take s2.nmp).map
           (fun v => v * ((s.arr .nel).sum / (s2.arr .nel).sum))) else s2.arr f }) else s := by
    intro s
    rfl
  rw [key, key]
  by_cases hn : s.nmp > n
  · rw [if_pos hn, if_pos (show (s.scl l).nmp > n from hn)]
    have hx : (s.scl l).arr .x = s.arr .x := scl_arr_ne l s (by decide)
    rw [hx, newRef_scl l hl, setRef_scl, compact_scl, scl_nmp, scl_life]
    dsimp only
    generalize (s.setRef (s.newRef n)).compact _ _ = s2
    apply MPs.ext' <;> try rfl
    funext f
    change (if f = .nel then _ else _) = List.map (sclFld l f) (if f = .nel then _ else _)
    by_cases hf : f = .nel
    · subst hf
      rw [if_pos rfl, if_pos rfl, scl_arr_nel, scl_arr_nel, sum_map_mul, sum_map_mul, sclFld_nel, ← setPrefix_map',
        mul_div_mul_left _ _ hl.ne', ← List.map_take, List.map_map, List.map_map]
      congr 1
      apply List.map_congr_left
      intro v _
      simp only [Function.comp]
      ring
    · rw [if_neg hf, if_neg hf, scl_arr]
  · rw [if_neg hn, if_neg (show ¬ (s.scl l).nmp > n from hn)]

theorem checkSoft_scl (l : K) (hl : 0 < l) (s : MPs K) (c : RegenCfg) (r : ℕ → K) :
    (s.scl l).checkSoft c r = (s.checkSoft c r).scl l := by
  unfold MPs.checkSoft
  cases c.soft with
  | none => rfl
  | some q =>
    show (if s.nmp > q.1 then _ else _) = _
    dsimp only
    split
    · exact softRegen_scl l hl s _ _
    · rfl

theorem checkAsync_scl (l : K) (hl : 0 < l) (s : MPs K) (c : RegenCfg) (r : ℕ → K) :
    (s.scl l).checkAsync c r = (s.checkAsync c r).scl l := by
  unfold MPs.checkAsync
  cases c.async with
  | none => rfl
  | some q =>
    dsimp only
    rw [clean_scl l hl]
    show (if s.nmp > q.1 then (if s.clean.nmp > q.1 then _ else _) else _) = _
    split
    · split
      · exact softRegen_scl l hl _ _ _
      · rfl
    · rfl

/-! ## Assignments -/

/-- the values of an assignment -/
def Src.map {α β : Type} (g : α → β) : Src α → Src β
  | .scalar v => .scalar (g v)
  | .array l => .array (l.map g)

theorem sliceAssign_map {α β : Type} (g : α → β) (a : List α) (lo hi : ℕ) (src : Src α) :
    sliceAssign (a.map g) lo hi (src.map g) = (sliceAssign a lo hi src).map (List.map g) := by
  unfold sliceAssign
  cases src with
  | scalar v => simp [Src.map, Except.map]
  | array l =>
    simp only [Src.map, List.length_map]
    split
    · simp [Except.map]
    · match l with
      | [] => rfl
      | [v] => simp [Except.map]
      | _ :: _ :: _ => rfl

theorem assignAll_scl (l : K) (arr : Fld → List K) (fs : List Fld) (lo hi : ℕ) (src src' : Fld → Src K)
    (hs : ∀ f, src' f = (src f).map (sclFld l f)) :
    assignAll (fun f => (arr f).map (sclFld l f)) fs lo hi src' =
      (assignAll arr fs lo hi src).map (fun a f => (a f).map (sclFld l f)) := by
  induction fs generalizing arr with
  | nil => rfl
  | cons f fs ih =>
    simp only [assignAll]
    rw [hs, sliceAssign_map]
    cases h : sliceAssign (arr f) lo hi (src f) with
    | error e => rfl
    | ok a =>
      simp only [Except.map]
      rw [← Except.map.eq_def, ← ih]
      congr 1
      funext g
      by_cases hg : g = f
      · subst hg; simp
      · simp [hg]

theorem addNew_scl (l : K) (s : MPs K) (n : ℕ) (src src' : Fld → Src K) (hs : ∀ f, src' f = (src f).map (sclFld l f)) :
    (s.scl l).addNew n src' = (s.addNew n src).map (MPs.scl l) := by
  unfold MPs.addNew
  show (match assignAll (fun f => (s.arr f).map (sclFld l f)) (Fld.main ++ if s.lifetime then [.tl] else []) s.nmp (s.nmp + n) src' with
    | .error e => Except.error e
    | .ok arr => Except.ok { s.scl l with arr := arr, nmp := s.nmp + n }) = _
  rw [assignAll_scl l _ _ _ _ src src' hs]
  cases assignAll s.arr (Fld.main ++ if s.lifetime then [.tl] else []) s.nmp (s.nmp + n) src with
  | error e => rfl
  | ok arr => rfl

/-! ## Histograms -/

theorem addAt_scl (l : K) (h : List K) (i : ℕ) (v : K) : addAt (h.map (l * ·)) i (l * v) = (addAt h i v).map (l * ·) := by
  unfold addAt
  apply List.ext_getElem?
  intro k
  simp only [List.getElem?_modify, List.getElem?_map]
  cases h[k]? with
  | none => rfl
  | some a =>
    simp only [Option.map_some, Option.map_eq_map]
    split <;> simp [mul_add]

section Floor

variable [FloorRing K]

/-- a weighted value with its weight multiplied -/
def sclW {α : Type} (l : K) (p : α × K) : α × K := (p.1, l * p.2)

theorem histStep_scl (l bias dx : K) (h : List K) (x w : K) :
    histStep bias dx (h.map (l * ·)) x (l * w) = (histStep bias dx h x w).map (List.map (l * ·)) := by
  unfold histStep
  simp only [List.length_map]
  split
  · rfl
  · split
    · rw [mul_assoc, mul_assoc, addAt_scl, addAt_scl]
      rfl
    · rw [addAt_scl]
      rfl

theorem computeHist_scl (l bias dx : K) (h : List K) (ps : List (K × K)) :
    computeHist bias dx (h.map (l * ·)) (ps.map (sclW l)) = (computeHist bias dx h ps).map (List.map (l * ·)) := by
  induction ps generalizing h with
  | nil => rfl
  | cons p ps ih =>
    simp only [List.map_cons, computeHist, sclW]
    rw [histStep_scl]
    cases histStep bias dx h p.1 p.2 with
    | error e => rfl
    | ok h' => exact ih h'

theorem updateSeg_scl (l : K) (h : List K) (ps : List (ℤ × K)) :
    updateSeg (h.map (l * ·)) (ps.map (sclW l)) = (updateSeg h ps).map (l * ·) := by
  unfold updateSeg
  induction ps generalizing h with
  | nil => rfl
  | cons p ps ih =>
    simp only [List.map_cons, List.foldl_cons, sclW, List.length_map]
    rw [← ih]
    congr 1
    split
    · exact addAt_scl _ _ _ _
    · rfl

/-! ## Full regeneration -/

theorem cutAway_scl (l : K) (h : List K) (i : ℕ) : cutAway (h.map (l * ·)) i = l * cutAway h i := by
  unfold cutAway
  rw [List.length_map, ← List.map_take, ← List.map_drop, sum_map_mul, sum_map_mul, mul_add]

theorem cutLoop_scl (l : K) (hl : 0 < l) (h : List K) (thr : K) (fuel i : ℕ) :
    cutLoop (h.map (l * ·)) (l * thr) fuel i = cutLoop h thr fuel i := by
  induction fuel generalizing i with
  | zero => simp only [cutLoop, cutAway_scl, mul_lt_mul_iff_right₀ hl]
  | succ n ih => simp only [cutLoop, cutAway_scl, mul_lt_mul_iff_right₀ hl, ih]

theorem cutX_scl (l : K) (s : MPs K) (x : K) : (s.scl l).cutX x = (s.cutX x).scl l := by
  unfold MPs.cutX
  rw [compact_scl, scl_arr_ne l s (by decide : Fld.x ≠ .nel), scl_nmp]

theorem stepsOf_scl (l : K) (c : FullCfg K) (s : MPs K) (x : K) : stepsOf c (s.scl l) x = stepsOf c s x := by
  unfold stepsOf
  rw [scl_arr_ne l s (by decide : Fld.vx ≠ .nel), scl_arr_ne l s (by decide : Fld.vy ≠ .nel),
    scl_arr_ne l s (by decide : Fld.vz ≠ .nel)]

theorem indexes_scl (l : K) (c : FullCfg K) (s : MPs K) (st : Steps K) : (s.scl l).indexes c st = s.indexes c st := by
  unfold MPs.indexes
  rw [scl_arr_ne l s (by decide : Fld.vx ≠ .nel), scl_arr_ne l s (by decide : Fld.vy ≠ .nel),
    scl_arr_ne l s (by decide : Fld.vz ≠ .nel), scl_arr_ne l s (by decide : Fld.x ≠ .nel),
    scl_arr_ne l s (by decide : Fld.y ≠ .nel), scl_nmp]

theorem cellDens_scl (l : K) (ps : List (ℤ × K)) (c : ℤ) : cellDens (ps.map (sclW l)) c = l * cellDens ps c := by
  rw [cellDens_eq, cellDens_eq, List.filter_map, List.map_map]
  rw [show ((fun p : ℤ × K => p.1 == c) ∘ sclW l) = (fun p => p.1 == c) from rfl]
  rw [← sum_map_mul, List.map_map]
  rfl

theorem regenLoop_scl (l : K) (outside : K → K → Bool) (st : Steps K) (pass : ℕ → PassDraws K) (fuel k : ℕ)
    (cells : List (Steps K × ℕ)) (arr : Fld → List K) (nmp : ℕ) :
    regenLoop outside st pass fuel k cells (fun f => (arr f).map (sclFld l f)) nmp =
      (regenLoop outside st pass fuel k cells arr nmp).map (fun q => (fun f => (q.1 f).map (sclFld l f), q.2)) := by
  induction fuel generalizing k cells arr nmp with
  | zero =>
    unfold regenLoop
    dsimp only
    split <;> rfl
  | succ n ih =>
    unfold regenLoop
    dsimp only
    split
    · rfl
    · cases hp : passPoints outside st ((cells.filter (fun c => decide (0 < c.2))).map (·.1)) (pass k) with
      | error e => rfl
      | ok cols =>
        dsimp only
        rw [assignAll_scl l arr passFields _ _ (fun f => .array (cols f)) _ (by
          intro f
          by_cases hf : f = .nel
          · subst hf
            have : cols .nel = [] := by
              unfold passPoints at hp
              split at hp
              · cases hp
              · cases hp
                rfl
            simp [Src.map, this]
          · simp only [Src.map, map_sclFld l hf])]
        cases assignAll arr passFields nmp (nmp + (cells.filter (fun c => decide (0 < c.2))).length)
            (fun f => .array (cols f)) with
        | error e => rfl
        | ok arr' => exact ih _ _ _ _

theorem rebuild_scl (l : K) (hl : 0 < l) (c : FullCfg K) (s : MPs K) (x : K) (d : FullDraws K) :
    (s.scl l).rebuild c x d = (s.rebuild c x d).map (MPs.scl l) := by
  unfold MPs.rebuild
  dsimp only
  rw [stepsOf_scl, indexes_scl]
  generalize hst : stepsOf c s x = st
  generalize hidx : s.indexes c st = idx
  have hz : idx.zip ((s.scl l).arr .nel) = (idx.zip (s.arr .nel)).map (sclW l) := by
    rw [scl_arr_nel, List.zip_map_right]
    rfl
  have hc : cellCounts ((occupied idx).map (cellDens (idx.zip ((s.scl l).arr .nel)))) (s.scl l).ref d.rest =
      cellCounts ((occupied idx).map (cellDens (idx.zip (s.arr .nel)))) s.ref d.rest := by
    rw [hz, scl_ref]
    unfold cellCounts
    apply List.ext_getElem
    · simp
    · intro k h1 h2
      simp only [List.getElem_mapIdx, List.getElem_map, cellDens_scl, mul_div_mul_left _ _ hl.ne']
  rw [hc]
  generalize cellCounts ((occupied idx).map (cellDens (idx.zip (s.arr .nel)))) s.ref d.rest = counts
  have hzero : (fun f => if f = Fld.tl then (s.scl l).arr .tl else ((s.scl l).arr f).map (fun _ => (0 : K))) =
      fun f => ((if f = Fld.tl then s.arr .tl else (s.arr f).map (fun _ => (0 : K)))).map (sclFld l f) := by
    funext f
    by_cases hf : f = .tl
    · subst hf
      simp [scl_arr]
    · rw [if_neg hf, if_neg hf, scl_arr, List.map_map, List.map_map]
      apply List.map_congr_left
      intro v _
      simp [sclFld]
  have hs1 : sliceAssign (if Fld.nel = Fld.tl then (s.scl l).arr .tl else ((s.scl l).arr .nel).map (fun _ => (0 : K))) 0 counts.sum
      (.array (List.replicate counts.sum (s.scl l).ref)) = (sliceAssign (if Fld.nel = Fld.tl then s.arr .tl else
        (s.arr .nel).map (fun _ => (0 : K))) 0 counts.sum (.array (List.replicate counts.sum s.ref))).map
          (List.map (sclFld l .nel)) := by
    rw [← sliceAssign_map]
    congr 1
    · exact congrFun hzero .nel
    · simp [Src.map, scl_ref, sclFld]
  rw [hs1]
  cases sliceAssign (if Fld.nel = Fld.tl then s.arr .tl else (s.arr .nel).map (fun _ => (0 : K))) 0 counts.sum
      (.array (List.replicate counts.sum s.ref)) with
  | error e => rfl
  | ok nel =>
    simp only [Except.map]
    have hu : Function.update (fun f => if f = Fld.tl then (s.scl l).arr .tl else ((s.scl l).arr f).map (fun _ => (0 : K))) .nel
        (nel.map (sclFld l .nel)) = fun f => (Function.update (fun f => if f = Fld.tl then s.arr .tl else
          (s.arr f).map (fun _ => (0 : K))) .nel nel f).map (sclFld l f) := by
      rw [hzero]
      funext f
      by_cases hf : f = .nel
      · subst hf; simp
      · simp [hf]
    rw [hu, regenLoop_scl]
    cases regenLoop c.outside st d.pass (counts.foldr max 0) 0
        (((occupied idx).map (fun i => centres c st (decode c i))).zip counts)
        (Function.update (fun f => if f = Fld.tl then s.arr .tl else (s.arr f).map (fun _ => (0 : K))) .nel nel) 0 with
    | error e => rfl
    | ok q =>
      simp only [Except.map]
      congr 1
      apply MPs.ext' <;> try rfl
      funext f
      change (if f = .tl ∧ s.lifetime = true then _ else _) = List.map (sclFld l f) (if f = .tl ∧ s.lifetime = true then _ else _)
      by_cases hf : f = .tl ∧ s.lifetime = true
      · rw [if_pos hf, if_pos hf]
        obtain ⟨rfl, -⟩ := hf
        rw [scl_arr, map_sclFld l (by decide), map_sclFld l (by decide)]
      · rw [if_neg hf, if_neg hf]

theorem checkRegen_scl (l : K) (hl : 0 < l) (c : FullCfg K) (s : MPs K) (fuel : ℕ) (d : FullDraws K) :
    (s.scl l).checkRegen c fuel d = (s.checkRegen c fuel d).map (MPs.scl l) := by
  unfold MPs.checkRegen
  have ht : c.trigger (s.scl l) = c.trigger s := by
    unfold FullCfg.trigger
    rw [scl_nmp, scl_ref, scl_ref0]
    simp only [gt_iff_lt, mul_lt_mul_iff_right₀ hl]
  rw [ht]
  split
  · dsimp only
    rw [newRef_scl l hl, setRef_scl]
    generalize s.setRef (s.newRef c.nAfter) = s1
    have hps : (((s1.scl l).arr .x).zip ((s1.scl l).arr .nel)).take (s1.scl l).nmp =
        (((s1.arr .x).zip (s1.arr .nel)).take s1.nmp).map (sclW l) := by
      rw [scl_arr_ne l s1 (by decide : Fld.x ≠ .nel), scl_arr_nel, List.zip_map_right, List.map_take, scl_nmp]
      rfl
    rw [hps]
    have h0 : (List.replicate c.histN (0 : K)) = (List.replicate c.histN (0 : K)).map (l * ·) := by simp
    conv_lhs => rw [h0, computeHist_scl]
    cases computeHist c.histBias c.histDx (List.replicate c.histN 0) (((s1.arr .x).zip (s1.arr .nel)).take s1.nmp) with
    | error e => rfl
    | ok h =>
      simp only [Except.map]
      rw [sum_map_mul, show c.histCut * (l * h.sum) = l * (c.histCut * h.sum) by ring, cutLoop_scl l hl, List.length_map]
      cases cutLoop h (c.histCut * h.sum) fuel 1 with
      | error e => rfl
      | ok i =>
        dsimp only
        rw [cutX_scl]
        exact rebuild_scl l hl _ _ _ _
  · rfl

theorem maintenance_scl (l : K) (hl : 0 < l) (s : MPs K) (np sk sr : Bool) (full : FullCfg K) (cfg : RegenCfg) (fuel : ℕ)
    (d : FullDraws K) (rs ra : ℕ → K) : (s.scl l).maintenance np sk sr full cfg fuel d rs ra =
      (s.maintenance np sk sr full cfg fuel d rs ra).map (MPs.scl l) := by
  unfold MPs.maintenance
  dsimp only
  rw [clean_scl l hl, show (if (np && !sk) = true then s.clean.scl l else s.scl l) =
    (if (np && !sk) = true then s.clean else s).scl l by split <;> rfl]
  generalize (if (np && !sk) = true then s.clean else s) = s1
  by_cases hr : (np && !sr) = true
  · rw [if_pos hr, if_pos hr, checkRegen_scl l hl]
    cases s1.checkRegen full fuel d with
    | error e => rfl
    | ok s2 =>
      simp only [Except.map]
      rw [checkSoft_scl l hl, checkAsync_scl l hl]
  · rw [if_neg hr, if_neg hr]
    simp only [Except.map]
    rw [checkAsync_scl l hl]

end Floor

end PyECLOUD
