import Verif.Lemmas.LoadMod

/-! # Reading input files at the same time: C159 -/

namespace PyECLOUD

variable {M : Type} (ext : String → Option String) (py : String → Except LoadErr M)

/-- **C159**, as long as two calls of one process are not under way at the same time. For all input files, all calls in any number of
processes, all leftovers of earlier runs in `/tmp` and all orders in which the operations of the calls interleave: a call that has
returned has given the module of its own input file (or its error, or that there is no such file), and when no call of its process
is under way its temporary directory does not exist any more, with no file in it. -/
theorem C159_disjoint_partial (s : LoadSt M) (hf : s.Fresh) (sched : List ℕ) (hn : NoOverlap ext py s sched) (i : ℕ)
    (r : Except LoadErr M) (hd : ((s.run ext py sched).tasks i).pc = .done r) :
    r = loadWanted ext py (s.tasks i).src ∧
    ((∀ j, (s.tasks j).pid = (s.tasks i).pid → ¬ ((s.run ext py sched).tasks j).Active) →
      (s.run ext py sched).fs.dirs (s.tasks i).pid = false ∧ ∀ n, (s.run ext py sched).fs.files (s.tasks i).pid n = none) := by
  have h := inv_run ext py s sched hf hn sched.length (Nat.le_refl _)
  rw [List.take_length] at h
  refine ⟨?_, fun hq => ?_⟩
  · have := h.good i
    unfold LoadGood at this
    rw [hd, (h.ids i).2] at this
    exact this
  · rcases h.gone i r hd with ⟨j, hj, ha⟩ | hg
    · rw [(h.ids j).1, (h.ids i).1] at hj
      exact absurd ha (hq j hj)
    · rw [(h.ids i).1] at hg
      exact hg

/-- **C159**, for calls in different processes: whatever the interleaving, every call that has returned has given the module of its
own file and left nothing behind. -/
theorem C159_processes (s : LoadSt M) (hf : s.Fresh) (hp : ∀ i j, (s.tasks i).pid = (s.tasks j).pid → i = j) (sched : List ℕ) (i : ℕ)
    (r : Except LoadErr M) (hd : ((s.run ext py sched).tasks i).pc = .done r) :
    r = loadWanted ext py (s.tasks i).src ∧ (s.run ext py sched).fs.dirs (s.tasks i).pid = false ∧
      ∀ n, (s.run ext py sched).fs.files (s.tasks i).pid n = none := by
  have h := C159_disjoint_partial ext py s hf sched (fun k i j hij he => absurd (hp i j he) hij) i r hd
  refine ⟨h.1, h.2 (fun j hj ha => ?_)⟩
  have := hp j i hj
  subst this
  exact ha.2 r hd

/-- **C159**, termination and frame: in every run, with or without overlaps, a call has returned after seven of its own operations, and
directories of other processes are not touched. -/
theorem C159_bounded (s : LoadSt M) (hf : s.Fresh) (sched : List ℕ) :
    (∀ i, 7 ≤ sched.count i → ∃ r, ((s.run ext py sched).tasks i).pc = .done r) ∧
    (∀ p, (∀ i, (s.tasks i).pid ≠ p) → (s.run ext py sched).fs.dirs p = s.fs.dirs p ∧
      (s.run ext py sched).fs.files p = s.fs.files p) := by
  constructor
  · intro i hc
    have h := run_left ext py sched s i
    rw [hf i] at h
    have h0 : ((s.run ext py sched).tasks i).pc.left = 0 := by
      have : LoadPc.left (.test : LoadPc M) = 7 := rfl
      omega
    cases hpc : ((s.run ext py sched).tasks i).pc with
    | done r => exact ⟨r, rfl⟩
    | test => rw [hpc] at h0; cases h0
    | mkdir => rw [hpc] at h0; cases h0
    | copy => rw [hpc] at h0; cases h0
    | read => rw [hpc] at h0; cases h0
    | write c => rw [hpc] at h0; cases h0
    | exec => rw [hpc] at h0; cases h0
    | clean r => rw [hpc] at h0; cases h0
  · intro p hp
    clear hf
    induction sched generalizing s with
    | nil => exact ⟨rfl, rfl⟩
    | cons a l ih =>
      have hid : ∀ i, ((s.step ext py a).tasks i).pid ≠ p := by
        intro i
        by_cases ha : i = a
        · subst ha
          have : (s.step ext py i).tasks i = ((s.tasks i).step ext py s.fs).2 := by simp [LoadSt.step]
          rw [this, (load_ids ext py s.fs (s.tasks i)).1]; exact hp i
        · have : (s.step ext py a).tasks i = s.tasks i := by simp [LoadSt.step, ha]
          rw [this]; exact hp i
      have h := ih (s.step ext py a) hid
      have hfr := load_frame ext py s.fs (s.tasks a) p (Ne.symm (hp a))
      exact ⟨h.1.trans hfr.1, h.2.trans hfr.2⟩

/-! A concrete case: two processes read a machine file and a beam file, with a directory left by a crash of an earlier process. -/

/-- the input files of the example -/
def exInputs : String → Option String := fun p =>
  if p = "machine.input" then some "Dt=25e-12" else if p = "beam.beam" then some "fact_beam=1.1e11" else none

/-- the text itself stands for the module -/
def exPy : String → Except LoadErr String := fun c => .ok c

/-- calls 0 and 1 of the processes `p` and `q` -/
def exLoads (p q : ℕ) (n m : String) : LoadSt String :=
  ⟨⟨fun k => decide (k = 7), fun _ _ => none⟩,
   fun i => if i = 0 then ⟨p, n, "machine.input", .test⟩ else if i = 1 then ⟨q, m, "beam.beam", .test⟩ else ⟨i + 100, "", "", .test⟩⟩

/-- outcome of a call, if it has returned -/
def LoadTask.outcome {M : Type} (t : LoadTask M) : Option (Except LoadErr M) :=
  match t.pc with
  | .done r => some r
  | _ => none

theorem LoadTask.outcome_done {M : Type} (t : LoadTask M) (r : Except LoadErr M) (h : t.outcome = some r) : t.pc = .done r := by
  unfold LoadTask.outcome at h
  split at h
  · next r' e => rw [e, Option.some.inj h]
  · cases h

example : (exLoads 7 8 "a" "b").Fresh ∧ (∀ i j, ((exLoads 7 8 "a" "b").tasks i).pid = ((exLoads 7 8 "a" "b").tasks j).pid → i = j) ∧
    (((exLoads 7 8 "a" "b").run exInputs exPy [0, 1, 1, 0, 1, 0, 0, 1, 0, 1, 1, 0, 1]).tasks 0).outcome.map Except.toOption =
      some (some "from numpy import pi\n\nDt=25e-12") ∧
    (((exLoads 7 8 "a" "b").run exInputs exPy [0, 1, 1, 0, 1, 0, 0, 1, 0, 1, 1, 0, 1]).tasks 1).outcome.map Except.toOption =
      some (some "from numpy import pi\n\nfact_beam=1.1e11") := by
  refine ⟨fun i => ?_, fun i j h => ?_, by decide +kernel, by decide +kernel⟩
  · unfold exLoads; dsimp only; split
    · rfl
    · split <;> rfl
  · unfold exLoads at h; dsimp only at h
    by_cases hi : i = 0
    · by_cases hj : j = 0
      · omega
      · by_cases hj1 : j = 1
        · simp [hi, hj1] at h
        · simp [hi, hj, hj1] at h
    · by_cases hi1 : i = 1
      · by_cases hj : j = 0
        · simp [hi1, hj] at h
        · by_cases hj1 : j = 1
          · omega
          · simp [hi1, hj, hj1] at h
      · by_cases hj : j = 0
        · simp [hi, hi1, hj] at h
        · by_cases hj1 : j = 1
          · simp [hi, hi1, hj1] at h
          · simp [hi, hi1, hj, hj1] at h; omega

/-- **C159** is false of the code for two calls of one process (two threads) that overlap: with copies made at the same time under the
same name, one call returns the module of the file of the other. -/
theorem C159_wrong_file_violated : ∃ (s : LoadSt String) (sched : List ℕ) (r : Except LoadErr String), s.Fresh ∧
    (s.tasks 0).src = "machine.input" ∧ ((s.run exInputs exPy sched).tasks 0).pc = .done r ∧
    r = loadWanted exInputs exPy "beam.beam" ∧ r ≠ loadWanted exInputs exPy "machine.input" := by
  refine ⟨exLoads 7 7 "a" "a", [0, 0, 1, 1, 0, 0, 0, 0], loadWanted exInputs exPy "beam.beam", fun i => ?_, by decide +kernel, ?_, rfl, ?_⟩
  · unfold exLoads; dsimp only; split
    · rfl
    · split <;> rfl
  · exact LoadTask.outcome_done _ _ (by decide +kernel)
  · intro h
    have : (loadWanted exInputs exPy "beam.beam").toOption = (loadWanted exInputs exPy "machine.input").toOption := by rw [h]
    revert this
    decide +kernel

/-- **C159** is false of the code for an input file that itself reads another input file (a call inside the execution of another one),
and for threads that overlap: the inner call removes the directory, and the outer one ends with an error although both files exist. -/
theorem C159_nested_violated : ∃ (s : LoadSt String) (sched : List ℕ), s.Fresh ∧ ((s.tasks 0).tag ≠ (s.tasks 1).tag) ∧
    ((s.run exInputs exPy sched).tasks 0).pc = .done (.error .notFound) ∧
    ((s.run exInputs exPy sched).tasks 1).pc = .done (loadWanted exInputs exPy "beam.beam") ∧
    (exInputs (s.tasks 0).src).isSome = true := by
  refine ⟨exLoads 9 9 "a" "b", [0, 0, 0, 0, 0, 0, 1, 1, 1, 1, 1, 1, 0], fun i => ?_, by decide +kernel, LoadTask.outcome_done _ _ (by decide +kernel),
    LoadTask.outcome_done _ _ (by decide +kernel), by decide +kernel⟩
  unfold exLoads; dsimp only; split
  · rfl
  · split <;> rfl

end PyECLOUD
