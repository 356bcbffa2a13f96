import Verif.Model.Emission

/-!
# Model of `SEY_model_ECLOUD.impacts_on_surface` and of the perfect absorber

The parallel arrays describing the impacts are modelled as one list of records.
-/

namespace PyECLOUD

variable {K : Type} [Field K] [LinearOrder K]

/-- One impact: entry of the arrays passed to `impacts_on_surface`
(impact_management_class.py:297-301). `seg` is `i_found`. -/
structure Impact (K : Type) where
  nel : K
  x : K
  y : K
  z : K
  vx : K
  vy : K
  vz : K
  nx : K
  ny : K
  seg : ℤ
  vn : K
  en : K
  cth : K

/-- An emitted macroparticle: entry of the arrays `*_replace` or `*_new_MPs`. -/
structure Emit (K : Type) where
  nel : K
  x : K
  y : K
  z : K
  vx : K
  vy : K
  vz : K
  seg : ℤ

/-- Return value of `impacts_on_surface` (event types left out). -/
structure SeyOut (K : Type) where
  nelEmit : List K
  replace : List (Emit K)
  new : List (Emit K)

/-- The emitted macroparticle before its velocity is known: copies of the impact point
(sec_emission_model_ECLOUD.py:140-150). -/
def Emit.ofImpact (i : Impact K) (nel : K) : Emit K := ⟨nel, i.x, i.y, i.z, i.vx, i.vy, i.vz, i.seg⟩

/-- Set the velocity of an emitted macroparticle. -/
def Emit.setV (e : Emit K) (v : K × K × K) : Emit K := { e with vx := v.1, vy := v.2.1, vz := v.2.2 }

/-- `SEY_model_perfect_absorber.impacts_on_surface` (sec_emission_model_perfect_absorber.py:78-118). -/
def seyAbsorber (imps : List (Impact K)) : SeyOut K where
  nelEmit := imps.map (fun i => i.nel * 0)
  replace := imps.map (fun i => Emit.ofImpact i (i.nel * 0))
  new := []

section Floor

variable [FloorRing K]

/-- `n_add` of one event (sec_emission_model_ECLOUD.py:163-165). -/
def nAdd (th : K) (nel : K) (elast : Bool) : ℕ := if elast then 0 else (⌈nel / th⌉ - 1).toNat

/-- Replaced macroparticle of one event, before the velocities of true secondaries are drawn
(sec_emission_model_ECLOUD.py:141-159, 169). -/
def baseReplace (th : K) (i : Impact K) (nel : K) (elast : Bool) : Emit K :=
  if elast then
    { Emit.ofImpact i nel with vx := (specular i.vx i.vy i.nx i.ny i.vn).1, vy := (specular i.vx i.vy i.nx i.ny i.vn).2 }
  else Emit.ofImpact i (nel / ((nAdd th nel elast : K) + 1))

/-- The emission part of `SEY_model_ECLOUD.impacts_on_surface` (sec_emission_model_ECLOUD.py:138-223), given
the outcome of `SEY_process` (one emitted charge and one elastic flag per impact), the energy generator for
the replaced (`hill1`) and for the added (`hill2`) macroparticles, and the angular generator
(`ang k energy nx ny`, entry `k` of the call). -/
def seyECLOUD (hill1 hill2 : List K → Except PyErr (List K)) (ang1 ang2 : ℕ → K → K → K → K × K × K) (th : K)
    (evs : List (Impact K × K × Bool)) : Except PyErr (SeyOut K) :=
  let nelEmit := evs.map (fun e => e.2.1)
  let true' := evs.map (fun e => !e.2.2)
  let base := evs.map (fun e => baseReplace th e.1 e.2.1 e.2.2)
  if countTrue true' = 0 then .ok ⟨nelEmit, base, []⟩
  else
    let imps := evs.map (fun e => e.1)
    let nadd := evs.map (fun e => nAdd th e.2.1 e.2.2)
    match hill1 (maskSel (imps.map (fun i => i.en)) true') with
    | .error e => .error e
    | .ok en1 =>
      let vel1 := ((maskSel imps true').zip en1).mapIdx (fun k q => ang1 k q.2 q.1.nx q.1.ny)
      let rep := maskPut base true' (((maskSel base true').zip vel1).map (fun q => q.1.setV q.2))
      if nadd.sum = 0 then .ok ⟨nelEmit, rep, []⟩
      else
        let par := npRepeat imps nadd
        let nelNew := npRepeat (base.map (fun b => b.nel)) nadd
        match hill2 (par.map (fun i => i.en)) with
        | .error e => .error e
        | .ok en2 =>
          let vel2 := (par.zip en2).mapIdx (fun k q => ang2 k q.2 q.1.nx q.1.ny)
          .ok ⟨nelEmit, rep, (((par.zip nelNew).map (fun q => Emit.ofImpact q.1 q.2)).zip vel2).map
            (fun q => q.1.setV q.2)⟩

/-- `SEY_model_ECLOUD.impacts_on_surface` (sec_emission_model_ECLOUD.py:134-223) with an elementwise
`SEY_process`: `proc k i` is (emitted charge, elastic?) of the `k`-th impact `i`, including its draw. -/
def seyEcloudModel (proc : ℕ → Impact K → K × Bool) (hill1 hill2 : List K → Except PyErr (List K))
    (ang1 ang2 : ℕ → K → K → K → K × K × K) (th : K) (imps : List (Impact K)) : Except PyErr (SeyOut K) :=
  seyECLOUD hill1 hill2 ang1 ang2 th (imps.mapIdx (fun k i => (i, proc k i)))

end Floor

end PyECLOUD
