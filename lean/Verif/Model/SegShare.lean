import Verif.Model.Yield

/-!
# The surface parameters of the segments when several clouds share a chamber

sec_emission_model_ECLOUD_nunif.py:81-112, init.py:290-362: all clouds get the same chamber object, and each
non-uniform surface model replaces the negative values of three columns of it by its own global parameters.
`np.float64(a)` of an array `a` that is in double precision is `a` itself, not a copy.
-/

namespace PyECLOUD

/-- The columns of a chamber file with surface parameters (sec_emission_model_ECLOUD_nunif.py:102-104). -/
inductive NuCol where
  | delMax
  | r0
  | eMax
  deriving DecidableEq

/-- A column in the chamber object (geom_impact_poly_fast_impact.py:88-90); `f64`: stored in double precision. -/
structure SegCol (K : Type) where
  vals : List K
  f64 : Bool

/-- What a surface model holds for a column: the array of the chamber, or one of its own. -/
inductive ColRef (K : Type) where
  | chamber
  | own (l : List K)

variable {K : Type} [Field K] [LinearOrder K]

/-- `a[a < 0.] = v` (sec_emission_model_ECLOUD_nunif.py:106-108). -/
def negTo (v : K) (l : List K) : List K := l.map (fun a => if a < 0 then v else a)

/-- `self.c = np.float64(chamb.c)` and `self.c[chamb.c < 0.] = v` (sec_emission_model_ECLOUD_nunif.py:102-108):
the column of the chamber afterwards and what the model holds. -/
def colInit (c : SegCol K) (v : K) : SegCol K × ColRef K :=
  if c.f64 then ({ c with vals := negTo v c.vals }, .chamber) else (c, .own (negTo v c.vals))

/-- The three columns of `__init__` (sec_emission_model_ECLOUD_nunif.py:102-108), each on its own. -/
def nunifInit (ch : NuCol → SegCol K) (p : NuCol → K) : (NuCol → SegCol K) × (NuCol → ColRef K) :=
  (fun c => (colInit (ch c) (p c)).1, fun c => (colInit (ch c) (p c)).2)

/-- The clouds one after the other (init.py:290-398): `none` stands for another surface model, which does not
look at these columns. -/
def nunifAll (ch : NuCol → SegCol K) : List (Option (NuCol → K)) →
    (NuCol → SegCol K) × List (Option (NuCol → ColRef K))
  | [] => (ch, [])
  | none :: l => ((nunifAll ch l).1, none :: (nunifAll ch l).2)
  | some p :: l =>
    ((nunifAll (nunifInit ch p).1 l).1, some (nunifInit ch p).2 :: (nunifAll (nunifInit ch p).1 l).2)

/-- The values a model reads in the simulation (`take(self.c, i_impact)`, sec_emission_model_ECLOUD_nunif.py:116-118). -/
def ColRef.read (c : SegCol K) : ColRef K → List K
  | .chamber => c.vals
  | .own l => l

/-- The values of a column that each cloud uses once all clouds are there. -/
def nunifUsed (ch : NuCol → SegCol K) (ps : List (Option (NuCol → K))) (c : NuCol) : List (Option (List K)) :=
  (nunifAll ch ps).2.map (Option.map (fun r => (r c).read ((nunifAll ch ps).1 c)))

end PyECLOUD
