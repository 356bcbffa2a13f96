import Verif.Model.SaveReq
import Verif.Props.Clocks
import Mathlib.Tactic.Linarith

/-!
# Requests for state files, checkpoints and copies: C155
-/

set_option linter.unusedSectionVars false

namespace PyECLOUD

variable {K : Type} [Field K] [LinearOrder K] [IsStrictOrderedRing K]

/-- The times asked for by a list, or by a file with one row or one column. -/
inductive Asks : ReqVal K → List K → Prop
  | list (l : List K) : Asks (.list l) l
  | row (l : List K) : Asks (.file [l]) l
  | column (l : List K) : Asks (.file (l.map (fun t => [t]))) l

theorem flatten_ones (l : List K) : (l.map (fun t => [t])).flatten = l := by
  induction l with
  | nil => rfl
  | cons c l ih => simp only [List.map_cons, List.flatten_cons, ih]; rfl

/-- **C155** (partial): two times or more, given as a list or in a file, are the times at which macroparticle and simulation states
are saved; so is a single time in a list. Missing: a file with one time, an empty list, see `C155_violated`. -/
theorem C155_times_partial (v : ReqVal K) (l : List K) (h : Asks v l) (hl : 2 ≤ l.length ∨ l.length = 1 ∧ v = .list l) :
    mpRequest v = .ok (.times l) ∧ simRequest v = .ok (.times l) := by
  cases h with
  | list =>
    cases l with
    | nil => simp at hl
    | cons a l => exact ⟨rfl, rfl⟩
  | row =>
    have h2 : 2 ≤ l.length := by
      rcases hl with hl | ⟨-, hl⟩
      · exact hl
      · cases hl
    match l, h2 with
    | a :: b :: l, _ => exact ⟨rfl, rfl⟩
  | column =>
    have h2 : 2 ≤ l.length := by
      rcases hl with hl | ⟨-, hl⟩
      · exact hl
      · cases hl
    match l, h2 with
    | a :: b :: l, _ =>
      have hall : ((a :: b :: l).map (fun t => [t])).all (fun r => r.length == 1) = true := by simp
      have hs : squeeze ((a :: b :: l).map (fun t => [t])) = .vec (a :: b :: l) := by
        simp only [List.map_cons, squeeze]
        rw [if_pos (by simp)]
        congr 1
        simp only [List.flatten_cons, List.cons_append, List.nil_append]
        congr 2
        exact flatten_ones l
      constructor
      · unfold mpRequest
        simp only [hs]
      · unfold simRequest
        simp only [hs]

/-- **C155**: with `None` or `-1` nothing is saved. -/
theorem C155_off : mpRequest (.none : ReqVal K) = .ok .off ∧ simRequest (.none : ReqVal K) = .ok .off ∧
    mpRequest (.int (-1) : ReqVal K) = .ok .off ∧ simRequest (.int (-1) : ReqVal K) = .ok .off ∧
    (∀ f, ckRequest (.none : ReqVal K) f = .ok none ∧ ckRequest (.int (-1) : ReqVal K) f = .ok none ∧
      copyRequest (.none : ReqVal K) f = .ok none ∧ copyRequest (.int (-1) : ReqVal K) f = .ok none) :=
  ⟨rfl, rfl, rfl, rfl, fun _ => ⟨rfl, rfl, rfl, rfl⟩⟩

/-- **C155 fails**: for a file with a single time no macroparticle state is saved, without any message, and the request for
a simulation state ends the program; an empty list of times for the macroparticle states ends the program; a time given as a
number is ignored. -/
theorem C155_violated (t : K) :
    (Asks (.file [[t]]) [t] ∧ mpRequest (.file [[t]]) = .ok .off ∧ simRequest (.file [[t]]) = .error .typeError) ∧
    (Asks (.list []) ([] : List K) ∧ mpRequest (.list [] : ReqVal K) = .error .indexError ∧
      simRequest (.list [] : ReqVal K) = .ok (.times [])) ∧
    mpRequest (.float t) = .ok .off ∧ simRequest (.float t) = .error .typeError :=
  ⟨⟨.row _, rfl, rfl⟩, ⟨.list _, rfl, rfl⟩, rfl, rfl⟩

/-- **C155 fails**: an integer other than -1 instead of times is taken as "nothing to save" for the macroparticle states and ends the
program for the simulation states. -/
theorem C155_violated_number (n : ℤ) (h : n ≠ -1) :
    mpRequest (.int n : ReqVal K) = .ok .off ∧ simRequest (.int n : ReqVal K) = .error .typeError :=
  ⟨rfl, by simp [simRequest, h]⟩

/-- **C155** (partial): a positive interval, integer or float, is the interval of the checkpoints and of the copies, and without a
folder it is refused. Missing: negative floats, see `C155_violated_interval`. -/
theorem C155_interval_partial (x : K) (n : ℤ) (hn : 0 ≤ n) :
    ckRequest (.float x) true = .ok (some x) ∧ ckRequest (.int n : ReqVal K) true = .ok (some (n : K)) ∧
    copyRequest (.float x) true = .ok (some x) ∧ copyRequest (.int n : ReqVal K) true = .ok (some (n : K)) ∧
    ckRequest (.float x) false = .error .valueError ∧ ckRequest (.int n : ReqVal K) false = .error .valueError ∧
    copyRequest (.float x) false = .error .valueError ∧ copyRequest (.int n : ReqVal K) false = .error .valueError := by
  have h1 : ¬ n = -1 := by omega
  have h2 : ¬ n < 0 := by omega
  refine ⟨rfl, ?_, rfl, ?_, rfl, ?_, rfl, ?_⟩
  · simp only [ckRequest, if_neg h1, if_true]
  · simp only [copyRequest, if_neg h2, if_true]
  · simp only [ckRequest, if_neg h1]; rfl
  · simp only [copyRequest, if_neg h2]; rfl

/-- **C155 fails for `-1.`**: written as a float (or as another negative integer for the checkpoints) it does not switch the
checkpoints off: one is saved at every passage. -/
theorem C155_violated_interval (c : ClockCfg K) (s : Clocks K) (e : TickIn K) (he : e.newPass = true) (ht : s.tCk ≤ e.tt) :
    ckRequest (.float (-1) : ReqVal K) true = .ok (some (-1)) ∧ ckRequest (.int (-2) : ReqVal K) true = .ok (some (-2)) ∧
    copyRequest (.float (-1) : ReqVal K) true = .ok (some (-1)) ∧
    (∀ dt < 0, c.ck = some dt → .ckpt s.iCk ∈ (s.tick c e).1) := by
  refine ⟨rfl, by simp [ckRequest], rfl, fun dt hdt hc => ?_⟩
  have h := congrArg Prod.fst (tick_ck c s e)
  have h2 : ckOf c s.iCk s.tCk e = ([.ckpt s.iCk], s.iCk + 1, e.tt) := by
    unfold ckOf
    rw [hc]
    have : e.tt - s.tCk ≥ dt := by linarith
    simp [he, this]
  rw [h2] at h
  dsimp only at h
  exact (List.mem_filter.mp (h.symm ▸ List.mem_singleton.mpr rfl : Recd.ckpt s.iCk ∈ (s.tick c e).1.filter Recd.isCk)).1

/-- a column of three times -/
example : Asks (.file [[1], [2], [5]] : ReqVal ℚ) [1, 2, 5] := .column [1, 2, 5]

/-- the first passage of a run -/
example : (Clocks.start : Clocks ℚ).tCk ≤ 1 := by decide +kernel

end PyECLOUD
