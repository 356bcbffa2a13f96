import Verif.Lemmas.Dynamics
import Verif.Model.Timing
import Mathlib.Data.List.GetD
import Mathlib.Algebra.Order.Floor.Ring
import Mathlib.Algebra.Order.Field.Basic

namespace PyECLOUD

set_option linter.unusedSectionVars false

theorem pyGet_ok_nat {α : Type} (l : List α) (k : ℕ) (h : k < l.length) : pyGet l (k : ℤ) = .ok l[k] := by
  unfold pyGet
  have h0 : ¬ (k : ℤ) < 0 := by omega
  simp only [if_neg h0, Int.toNat_natCast]
  rw [List.getElem?_eq_getElem h]

section grid
variable {K : Type} [Field K] [LinearOrder K] [IsStrictOrderedRing K] [FloorRing K]

/-- passage number of a time -/
def passOf (g : BeamGrid K) (t : K) : ℤ := ⌊t / g.bSpac⌋

/-- the beam state at step `i` of the grid, closed form for increasing grids -/
def beamAt (g : BeamGrid K) (i : ℕ) : BeamSt K where
  ii := i
  tt := some (g.t.getD i 0)
  dtCurr := some (g.t.getD (i + 1) 0 - g.t.getD i 0)
  lamCurr := some (g.lam.getD i 0)
  pass := some (passOf g (g.t.getD i 0))
  passOld := max (-1) (passOf g (g.t.getD i 0))
  newPass := decide (passOf g (g.t.getD i 0) > (if i = 0 then -1 else max (-1) (passOf g (g.t.getD (i - 1) 0))))

/-- the state before step `i` -/
def beamBefore (g : BeamGrid K) : ℕ → BeamSt K
  | 0 => BeamSt.init
  | i + 1 => beamAt g i

theorem passOf_mono (g : BeamGrid K) (hb : 0 < g.bSpac) {a b : K} (h : a ≤ b) : passOf g a ≤ passOf g b :=
  Int.floor_le_floor (div_le_div_of_nonneg_right h hb.le)

theorem grid_mono (t : List K) (ht : t.Pairwise (· < ·)) (i j : ℕ) (hij : i < j) (hj : j < t.length) :
    t.getD i 0 < t.getD j 0 := by
  rw [List.getD_eq_getElem _ _ (by omega), List.getD_eq_getElem _ _ hj]
  exact List.pairwise_iff_getElem.mp ht i j (by omega) hj hij

theorem nextTimeStep_before (g : BeamGrid K) (hb : 0 < g.bSpac) (ht : g.t.Pairwise (· < ·))
    (hl : g.lam.length = g.t.length) (i : ℕ) (hi : i + 1 < g.t.length) :
    nextTimeStep g (beamBefore g i) = .ok (beamAt g i) := by
  have hii : (beamBefore g i).ii + 1 = (i : ℤ) := by
    cases i <;> simp [beamBefore, BeamSt.init, beamAt]
  have hold : (beamBefore g i).passOld
      = (if i = 0 then -1 else max (-1) (passOf g (g.t.getD (i - 1) 0))) := by
    cases i <;> simp [beamBefore, BeamSt.init, beamAt]
  have e1 : pyGet g.t (i : ℤ) = .ok (g.t.getD i 0) := by
    rw [pyGet_ok_nat _ _ (by omega), List.getD_eq_getElem]
  have e2 : pyGet g.t ((i : ℤ) + 1) = .ok (g.t.getD (i + 1) 0) := by
    have : ((i : ℤ) + 1) = ((i + 1 : ℕ) : ℤ) := by push_cast; rfl
    rw [this, pyGet_ok_nat _ _ hi, List.getD_eq_getElem]
  have e3 : pyGet g.lam (i : ℤ) = .ok (g.lam.getD i 0) := by
    rw [pyGet_ok_nat _ _ (by omega), List.getD_eq_getElem]
  unfold nextTimeStep
  simp only [hii, e1, e2, e3, hold]
  have hm : (if i = 0 then -1 else max (-1) (passOf g (g.t.getD (i - 1) 0)))
      ≤ max (-1) (passOf g (g.t.getD i 0)) := by
    split
    · exact le_max_left _ _
    · next h0 =>
      exact max_le_max le_rfl (passOf_mono g hb (grid_mono g.t ht (i - 1) i (by omega) (by omega)).le)
  have hge : (-1 : ℤ) ≤ (if i = 0 then -1 else max (-1) (passOf g (g.t.getD (i - 1) 0))) := by
    split
    · exact le_rfl
    · exact le_max_left _ _
  show Except.ok _ = Except.ok _
  congr 1
  unfold beamAt
  congr 1
  generalize (if i = 0 then -1 else max (-1) (passOf g (g.t.getD (i - 1) 0))) = m at hm hge
  change cond (decide (passOf g (g.t.getD i 0) > m)) (passOf g (g.t.getD i 0)) m = _
  by_cases h : passOf g (g.t.getD i 0) > m
  · rw [decide_eq_true h]
    change passOf g (g.t.getD i 0) = _
    exact (max_eq_right (by omega)).symm
  · rw [decide_eq_false h]
    change m = _
    push Not at h
    rcases le_total (-1) (passOf g (g.t.getD i 0)) with h1 | h1
    · rw [max_eq_right h1] at hm ⊢; omega
    · rw [max_eq_left h1] at hm ⊢; omega

theorem endSim_before (g : BeamGrid K) (i : ℕ) : endSim g (beamBefore g i) = decide (g.t.length ≤ i + 1) := by
  unfold endSim
  have : (beamBefore g i).ii = (i : ℤ) - 1 := by
    cases i <;> simp [beamBefore, BeamSt.init, beamAt]
  rw [this]
  apply decide_eq_decide.mpr
  omega

/-- run the bodies of the steps `i, i+1, ..., i+n-1` -/
def foldSteps {S : Type} (g : BeamGrid K) (body : BeamSt K → S → Except PyErr S) :
    ℕ → ℕ → S → Except PyErr S
  | _, 0, s => .ok s
  | i, n + 1, s =>
    match body (beamAt g i) s with
    | .error e => .error e
    | .ok s' => foldSteps g body (i + 1) n s'

theorem foldSteps_append {S : Type} (g : BeamGrid K) (body : BeamSt K → S → Except PyErr S) (i m n : ℕ) (s : S) :
    foldSteps g body i (m + n) s = (match foldSteps g body i m s with
      | .error e => .error e
      | .ok s' => foldSteps g body (i + m) n s') := by
  induction m generalizing i s with
  | zero => simp [foldSteps]
  | succ m ih =>
    rw [Nat.add_right_comm, foldSteps, foldSteps]
    cases body (beamAt g i) s with
    | error e => rfl
    | ok s' =>
      dsimp only
      rw [ih, show i + 1 + m = i + (m + 1) by omega]

theorem runLoop_none {S : Type} (g : BeamGrid K) (hb : 0 < g.bSpac) (ht : g.t.Pairwise (· < ·))
    (hl : g.lam.length = g.t.length) (body : BeamSt K → S → Except PyErr S) (fuel i : ℕ) (s : S)
    (hf : g.t.length ≤ fuel + i) (hi : i ≤ g.t.length - 1) (hf0 : fuel ≠ 0) :
    runLoop g body none fuel (beamBefore g i) s =
      (match foldSteps g body i (g.t.length - 1 - i) s with
        | .error e => .error e
        | .ok s' => .ok (beamBefore g (g.t.length - 1), s')) := by
  induction fuel generalizing i s with
  | zero => exact absurd rfl hf0
  | succ fuel ih =>
    rw [runLoop, endSim_before]
    by_cases hend : g.t.length ≤ i + 1
    · have : g.t.length - 1 - i = 0 := by omega
      rw [this, if_pos (by simpa using hend)]
      simp only [foldSteps]
      congr 3
      omega
    · rw [if_neg (by simpa using hend), if_neg (by simp [reachedEnd])]
      rw [nextTimeStep_before g hb ht hl i (by omega)]
      have hn : g.t.length - 1 - i = (g.t.length - 1 - (i + 1)) + 1 := by omega
      rw [hn, foldSteps]
      cases hbd : body (beamAt g i) s with
      | error e => simp only [hbd]
      | ok s' =>
        simp only [hbd]
        exact ih (i + 1) s' (by omega) (by omega) (by omega)

theorem foldSteps_eq_foldlM {S : Type} (g : BeamGrid K) (body : BeamSt K → S → Except PyErr S) (i n : ℕ) (s : S) :
    foldSteps g body i n s = ((List.range' i n).map (beamAt g)).foldlM (fun s b => body b s) s := by
  induction n generalizing i s with
  | zero => rfl
  | succ n ih =>
    rw [foldSteps, List.range'_succ, List.map_cons, List.foldlM_cons]
    cases body (beamAt g i) s with
    | error e => rfl
    | ok s' => exact ih (i + 1) s'

/-- index at which a run stopped by `t_end_sim` ends, counted from state `i` -/
theorem runLoop_some {S : Type} (g : BeamGrid K) (hb : 0 < g.bSpac) (ht : g.t.Pairwise (· < ·))
    (hl : g.lam.length = g.t.length) (body : BeamSt K → S → Except PyErr S) (te : K) (fuel i : ℕ) (s : S)
    (hf : g.t.length ≤ fuel + i) (hi : i ≤ g.t.length - 1) (hf0 : fuel ≠ 0) :
    ∃ m, i + m ≤ g.t.length - 1 ∧
      (∀ k, i ≤ k → k < i + m → reachedEnd (some te) (beamBefore g k) = false) ∧
      (i + m < g.t.length - 1 → reachedEnd (some te) (beamBefore g (i + m)) = true) ∧
      runLoop g body (some te) fuel (beamBefore g i) s =
        (match foldSteps g body i m s with
          | .error e => .error e
          | .ok s' => .ok (beamBefore g (i + m), s')) := by
  induction fuel generalizing i s with
  | zero => exact absurd rfl hf0
  | succ fuel ih =>
    by_cases hend : g.t.length ≤ i + 1
    · refine ⟨0, by omega, fun k h1 h2 => by omega, fun h => by omega, ?_⟩
      rw [runLoop, endSim_before, if_pos (by simpa using hend)]
      rfl
    · by_cases hr : reachedEnd (some te) (beamBefore g i) = true
      · refine ⟨0, by omega, fun k h1 h2 => by omega, fun _ => hr, ?_⟩
        rw [runLoop, endSim_before, if_neg (by simpa using hend), if_pos hr]
        rfl
      · have hrf : reachedEnd (some te) (beamBefore g i) = false := by simpa using hr
        cases hbd : body (beamAt g i) s with
        | error e =>
          obtain ⟨m, h1, h2, h3, -⟩ := ih (i + 1) s (by omega) (by omega) (by omega)
          refine ⟨m + 1, by omega, fun k k1 k2 => ?_, fun h => ?_, ?_⟩
          · rcases Nat.eq_or_lt_of_le k1 with rfl | hlt
            · exact hrf
            · exact h2 k hlt (by omega)
          · have := h3 (by omega)
            rwa [show i + 1 + m = i + (m + 1) by omega] at this
          · rw [runLoop, endSim_before, if_neg (by simpa using hend), if_neg hr,
              nextTimeStep_before g hb ht hl i (by omega), foldSteps]
            simp only [hbd]
        | ok s' =>
          obtain ⟨m, h1, h2, h3, h4⟩ := ih (i + 1) s' (by omega) (by omega) (by omega)
          refine ⟨m + 1, by omega, fun k k1 k2 => ?_, fun h => ?_, ?_⟩
          · rcases Nat.eq_or_lt_of_le k1 with rfl | hlt
            · exact hrf
            · exact h2 k hlt (by omega)
          · have := h3 (by omega)
            rwa [show i + 1 + m = i + (m + 1) by omega] at this
          · rw [runLoop, endSim_before, if_neg (by simpa using hend), if_neg hr,
              nextTimeStep_before g hb ht hl i (by omega), foldSteps]
            simp only [hbd]
            have h4' := h4
            rw [beamBefore] at h4'
            rw [h4', show i + 1 + m = i + (m + 1) by omega]

end grid

end PyECLOUD
