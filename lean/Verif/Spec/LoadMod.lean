import Verif.Model.LoadMod

/-! # Specification for the loading of input files -/

namespace PyECLOUD

/-- What the loading of a file has to give: the module of the own file with `pi` defined, or that there is no such file. -/
def loadWanted {M : Type} (ext : String → Option String) (py : String → Except LoadErr M) (src : String) : Except LoadErr M :=
  match ext src with
  | none => .error .notFound
  | some text => py ("from numpy import pi\n\n" ++ text)

/-- the call has begun and has not returned -/
def LoadTask.Active {M : Type} (t : LoadTask M) : Prop := t.pc ≠ .test ∧ ∀ r, t.pc ≠ .done r

/-- all calls are still to be made -/
def LoadSt.Fresh {M : Type} (s : LoadSt M) : Prop := ∀ i, (s.tasks i).pc = .test

/-- at no time in the run are two calls of one process under way -/
def NoOverlap {M : Type} (ext : String → Option String) (py : String → Except LoadErr M) (s : LoadSt M) (sched : List ℕ) : Prop :=
  ∀ k i j, i ≠ j → (s.tasks i).pid = (s.tasks j).pid →
    ¬ (((s.run ext py (sched.take k)).tasks i).Active ∧ ((s.run ext py (sched.take k)).tasks j).Active)

end PyECLOUD
