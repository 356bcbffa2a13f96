import Verif.Model.SegShare

/-! # Specification: the surface parameters a cloud is meant to use -/

namespace PyECLOUD

/-- A column of the chamber file is meant to be used as written, with the cloud's global parameter `v` in the place of the negative
values. -/
def UsesOwn {K : Type} [Field K] [LinearOrder K] (file : List K) (v : K) (used : List K) : Prop :=
  used.length = file.length ∧
  ∀ (k : ℕ) (a : K), file[k]? = some a → (0 ≤ a → used[k]? = some a) ∧ (a < 0 → used[k]? = some v)

/-- Cloud number `i` of `ps` (its global parameters; `none` for another surface model) uses the columns as meant. -/
def CloudOwn {K : Type} [Field K] [LinearOrder K] (ch : NuCol → SegCol K) (ps : List (Option (NuCol → K))) (i : ℕ) : Prop :=
  ∀ p, ps[i]? = some (some p) → ∀ c, ∃ used, (nunifUsed ch ps c)[i]? = some (some used) ∧ UsesOwn (ch c).vals (p c) used

end PyECLOUD
