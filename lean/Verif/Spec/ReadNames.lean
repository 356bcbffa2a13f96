import Verif.Model.Config

/-!
# Specification: what a set-up can tell apart
-/

namespace PyECLOUD

/-- The parameters of a cloud file for which no effect is claimed: the size of the histograms and the verbosity are taken
from the main input for all clouds, and the time before which no regeneration takes place is not implemented. -/
def ignoredInCloud : List String :=
  ["flag_verbose_stdout", "lifetime_hist_max", "Nbin_En_hist", "flag_verbose_file", "t_ON_regen_low", "Nbin_lifetime_hist",
    "En_hist_max"]

/-- Two input files give the same values but for the parameters in `l`. -/
def AgreeBut {V : Type} (l : List String) (f g : Mod V) : Prop := ∀ n, n ∉ l → attr f n = attr g n

end PyECLOUD
