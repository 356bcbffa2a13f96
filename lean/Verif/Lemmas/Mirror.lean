import Verif.Spec.Mirror
import Verif.Lemmas.ScaleSim
import Mathlib.Tactic.LinearCombination

/-!
# Lemmas: the mirror image of a simulation
-/

set_option linter.unusedSectionVars false

namespace PyECLOUD

variable {K : Type} [Field K] [LinearOrder K] [IsStrictOrderedRing K]

theorem mir_arr (m : Mirror K) (s : MPs K) (f : Fld) : (m.mps s).arr f = (s.arr f).map (m.sgn f * ·) := rfl

theorem map_one_mul (a : List K) : a.map ((1 : K) * ·) = a := by simp

theorem mir_nel (m : Mirror K) (s : MPs K) : (m.mps s).arr .nel = s.arr .nel := map_one_mul _
theorem mir_tl (m : Mirror K) (s : MPs K) : (m.mps s).arr .tl = s.arr .tl := map_one_mul _
theorem mir_nmp (m : Mirror K) (s : MPs K) : (m.mps s).nmp = s.nmp := rfl
theorem mir_life (m : Mirror K) (s : MPs K) : (m.mps s).lifetime = s.lifetime := rfl
theorem mir_ref (m : Mirror K) (s : MPs K) : (m.mps s).ref = s.ref := rfl
theorem mir_ref0 (m : Mirror K) (s : MPs K) : (m.mps s).ref0 = s.ref0 := rfl
theorem mir_len (m : Mirror K) (s : MPs K) (f : Fld) : ((m.mps s).arr f).length = (s.arr f).length := by
  rw [mir_arr, List.length_map]

theorem mir_getD (m : Mirror K) (s : MPs K) (f : Fld) (i : ℕ) : ((m.mps s).arr f).getD i 0 = m.sgn f * (s.arr f).getD i 0 := by
  rw [mir_arr, List.getD_eq_getElem?_getD, List.getD_eq_getElem?_getD, List.getElem?_map]
  cases (s.arr f)[i]? with
  | none => simp
  | some v => rfl

theorem setRef_mir (m : Mirror K) (v : K) (s : MPs K) : (m.mps s).setRef v = m.mps (s.setRef v) := rfl

theorem compact_mir (m : Mirror K) (s : MPs K) (keep : List Bool) (b : Bool) : (m.mps s).compact keep b = m.mps (s.compact keep b) := by
  apply MPs.ext' <;> try rfl
  funext f
  rw [mir_arr]
  cases f <;> simp only [MPs.compact, mir_arr]
  case nel => simp only [Mirror.sgn, map_one_mul]
  case tl => simp only [Mirror.sgn, map_one_mul]
  all_goals rw [← maskSel_map, setPrefix_map']

theorem clean_mir (m : Mirror K) (s : MPs K) : (m.mps s).clean = m.mps s.clean := by
  unfold MPs.clean
  dsimp only
  rw [mir_nel, compact_mir, mir_nmp, mir_nmp, mir_life, mir_ref0, show (m.mps s).clTh = s.clTh from rfl]
  generalize s.compact (clipMask ((s.arr .nel).map (fun v => !decide (v < s.clTh))) s.nmp) s.lifetime = s2
  by_cases h : s2.nmp = 0
  · rw [if_pos h, if_pos h, setRef_mir]
  · rw [if_neg h, if_neg h]

theorem newRef_mir (m : Mirror K) (s : MPs K) (n : ℕ) : (m.mps s).newRef n = s.newRef n := by
  unfold MPs.newRef
  rw [mir_nel, mir_ref0]

theorem softRegen_mir (m : Mirror K) (s : MPs K) (n : ℕ) (r : ℕ → K) : (m.mps s).softRegen n r = m.mps (s.softRegen n r) := by
  have key : ∀ s : MPs K, s.softRegen n r = if s.nmp > n then
      (let s2 := (s.setRef (s.newRef n)).compact ((List.range s.nmp).map (fun i => decide
          (((s.nmp : K) - (n : K)) / (s.nmp : K) < r i)) ++ List.replicate ((s.arr .x).length - s.nmp) false) s.lifetime
       { s2 with arr := fun f => if f = .nel then setPrefix (s2.arr .nel) (((s2.arr .nel).take s2.nmp).map
           (fun v => v * ((s.arr .nel).sum / (s2.arr .nel).sum))) else s2.arr f }) else s := by
    intro s
    rfl
  rw [key, key]
  by_cases hn : s.nmp > n
  · rw [if_pos hn, if_pos (show (m.mps s).nmp > n from hn)]
    rw [mir_len, newRef_mir, setRef_mir, compact_mir, mir_nmp, mir_life]
    dsimp only
    generalize (s.setRef (s.newRef n)).compact _ _ = s2
    apply MPs.ext' <;> try rfl
    funext f
    change (if f = .nel then _ else _) = List.map (m.sgn f * ·) (if f = .nel then _ else _)
    by_cases hf : f = .nel
    · subst hf
      rw [if_pos rfl, if_pos rfl, mir_nel, mir_nel]
      simp only [Mirror.sgn, map_one_mul]
      rfl
    · rw [if_neg hf, if_neg hf, mir_arr]
  · rw [if_neg hn, if_neg (show ¬ (m.mps s).nmp > n from hn)]

theorem checkSoft_mir (m : Mirror K) (s : MPs K) (c : RegenCfg) (r : ℕ → K) :
    (m.mps s).checkSoft c r = m.mps (s.checkSoft c r) := by
  unfold MPs.checkSoft
  cases c.soft with
  | none => rfl
  | some q =>
    show (if s.nmp > q.1 then _ else _) = _
    dsimp only
    split
    · exact softRegen_mir m s _ _
    · rfl

theorem checkAsync_mir (m : Mirror K) (s : MPs K) (c : RegenCfg) (r : ℕ → K) :
    (m.mps s).checkAsync c r = m.mps (s.checkAsync c r) := by
  unfold MPs.checkAsync
  cases c.async with
  | none => rfl
  | some q =>
    dsimp only
    rw [clean_mir]
    show (if s.nmp > q.1 then (if s.clean.nmp > q.1 then _ else _) else _) = _
    split
    · split
      · exact softRegen_mir m _ _ _
      · rfl
    · rfl

theorem assignAll_mir (m : Mirror K) (arr : Fld → List K) (fs : List Fld) (lo hi : ℕ) (src src' : Fld → Src K)
    (hs : ∀ f, src' f = (src f).map (m.sgn f * ·)) :
    assignAll (fun f => (arr f).map (m.sgn f * ·)) fs lo hi src' =
      (assignAll arr fs lo hi src).map (fun a f => (a f).map (m.sgn f * ·)) := by
  induction fs generalizing arr with
  | nil => rfl
  | cons f fs ih =>
    simp only [assignAll]
    rw [hs, sliceAssign_map]
    cases h : sliceAssign (arr f) lo hi (src f) with
    | error e => rfl
    | ok a =>
      simp only [Except.map]
      rw [← Except.map.eq_def, ← ih]
      congr 1
      funext g
      by_cases hg : g = f
      · subst hg; simp
      · simp [hg]

theorem addNew_mir (m : Mirror K) (s : MPs K) (n : ℕ) (src src' : Fld → Src K) (hs : ∀ f, src' f = (src f).map (m.sgn f * ·)) :
    (m.mps s).addNew n src' = (s.addNew n src).map m.mps := by
  unfold MPs.addNew
  show (match assignAll (fun f => (s.arr f).map (m.sgn f * ·)) (Fld.main ++ if s.lifetime then [.tl] else []) s.nmp (s.nmp + n) src' with
    | .error e => Except.error e
    | .ok arr => Except.ok { m.mps s with arr := arr, nmp := s.nmp + n }) = _
  rw [assignAll_mir m _ _ _ _ src src' hs]
  cases assignAll s.arr (Fld.main ++ if s.lifetime then [.tl] else []) s.nmp (s.nmp + n) src with
  | error e => rfl
  | ok arr => rfl

/-! ## Involutions -/

theorem mul_self_cancel {s : K} (h : s * s = 1) (v : K) : s * (s * v) = v := by rw [← mul_assoc, h, one_mul]

theorem mir_vec_vec (m : Mirror K) (v : K × K × K) : m.vec (m.vec v) = v := by
  simp only [Mirror.vec, mul_self_cancel m.hx, mul_self_cancel m.hy, mul_self_cancel m.hz]

theorem mir_phase_phase (m : Mirror K) (p : Phase K) : m.phase (m.phase p) = p := by
  simp only [Mirror.phase, mul_self_cancel m.hx, mul_self_cancel m.hy, mul_self_cancel m.hz]

theorem mir_hit_hit (m : Mirror K) (h : Hit K) : m.hit (m.hit h) = h := by
  simp only [Mirror.hit, mul_self_cancel m.hx, mul_self_cancel m.hy, mul_self_cancel m.hz]

theorem mir_impact_impact (m : Mirror K) (h : Impact K) : m.impact (m.impact h) = h := by
  simp only [Mirror.impact, mul_self_cancel m.hx, mul_self_cancel m.hy, mul_self_cancel m.hz]

theorem mir_seg_seg (m : Mirror K) (g : PhSeg K) : m.seg (m.seg g) = g := by
  simp only [Mirror.seg, mul_self_cancel m.hx, mul_self_cancel m.hy]

/-! ## Motion -/

theorem phase_mir (m : Mirror K) (s : MPs K) (i : ℕ) : (m.mps s).phase i = m.phase (s.phase i) := by
  simp only [MPs.phase, Mirror.phase, mir_getD, Mirror.sgn]

theorem push_mir (m : Mirror K) (s : MPs K) (step step' : ℕ → Phase K → Phase K)
    (h : ∀ i < s.nmp, step' i (m.phase (s.phase i)) = m.phase (step i (s.phase i))) :
    (m.mps s).push step' = m.mps (s.push step) := by
  unfold MPs.push
  dsimp only
  rw [mir_nmp]
  have hp : (List.range s.nmp).map (fun i : ℕ => step' i ((m.mps s).phase i)) =
      ((List.range s.nmp).map (fun i : ℕ => step i (s.phase i))).map m.phase := by
    rw [List.map_map]
    apply List.map_congr_left
    intro i hi
    rw [phase_mir]
    exact h i (List.mem_range.1 hi)
  rw [hp]
  generalize (List.range s.nmp).map (fun i : ℕ => step i (s.phase i)) = ph
  split
  · apply MPs.ext' <;> try rfl
    funext f
    cases f
    case nel => rfl
    case tl => rfl
    all_goals
      simp only [mir_arr, ← setPrefix_map', List.map_map]
      rfl
  · rfl

theorem positions_mir (m : Mirror K) (s : MPs K) : (m.mps s).positions = s.positions.map m.vec := by
  unfold MPs.positions
  rw [List.map_map, mir_nmp]
  apply List.map_congr_left
  intro i _
  simp only [Function.comp, mir_getD, Mirror.sgn, Mirror.vec]

end PyECLOUD
