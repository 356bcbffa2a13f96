import Verif.Model.Sey

/-!
# Model of sec_emission_model_furman_pivi.py: event selection and `impacts_on_surface`

The energy generators (inverse transform sampling with special functions) and the yields are parameters;
random numbers are explicit.
-/

namespace PyECLOUD

variable {K : Type} [Field K] [LinearOrder K]

/-- The three flags of `SEY_process`, as one value. -/
inductive FPKind where
  | back
  | rediff
  | true'
  deriving DecidableEq, Repr

/-- Settings (sec_emission_model_furman_pivi.py:121-129). -/
structure FPCfg where
  mCut : ℕ
  useEcloudEnergy : Bool
  conserveEnergy : Bool
  excludeRediffused : Bool

/-- The decision of `SEY_process` for one impact (sec_emission_model_furman_pivi.py:202-210); `u` the draw. -/
def fpKind (excl : Bool) (de dr u : K) : FPKind :=
  if excl then
    if de < u then .true' else .back
  else if de + dr < u then .true'
  else if u < de then .back
  else .rediff

/-- The flags themselves, as computed with numpy (sec_emission_model_furman_pivi.py:202-210):
`flag_backscattered, flag_rediffused, flag_truesec`; the second is `None` without rediffused electrons. -/
def fpFlags (excl : Bool) (de dr u : K) : Bool × Option Bool × Bool :=
  if excl then
    let t := decide (de < u)
    (!t, none, t)
  else
    let t := decide (de + dr < u)
    let b := !t && decide (u < de)
    (b, some (!t && !b), t)

/-- `SEY_process` (sec_emission_model_furman_pivi.py:184-221) with the check of `yield_fun_furman_pivi`
(sec_emission_model_furman_pivi.py:223-229); `ds` are `(delta_e, delta_r)` of the impacts, `u` the draws. -/
def fpProcess (excl : Bool) (ds : List (K × K)) (u : ℕ → K) : Except PyErr (List FPKind) :=
  if ds.any (fun d => decide (1 ≤ d.1 + d.2)) then .error .valueError
  else .ok (ds.mapIdx (fun k d => fpKind excl d.1 d.2 (u k)))

/-- `delta_ts_prime` (sec_emission_model_furman_pivi.py:405-408). -/
def deltaPrime (excl : Bool) (de dr dts : K) : K := if excl then dts / (1 - de) else dts / (1 - de - dr)

/-- The truncation loop of the Poisson numbers (sec_emission_model_furman_pivi.py:410-425): `draws a k` is
the number drawn for entry `k` in iteration `a`. `fuel` bounds the number of iterations (see C31). -/
def poissonCut (mCut : ℕ) (draws : ℕ → ℕ → ℕ) : ℕ → ℕ → List ℕ → Except PyErr (List ℕ)
  | fuel, attempt, ns =>
    if ns.all (fun n => decide (n ≤ mCut)) then .ok ns
    else match fuel with
      | 0 => .error .stillRunning
      | fuel + 1 =>
        poissonCut mCut draws fuel (attempt + 1)
          (ns.mapIdx (fun k n => if n > mCut then
            (if attempt > 10 then min (draws attempt k) mCut else draws attempt k) else n))

/-- One impact with its event kind and number `n_emit_truesec_MPs` (0 unless true secondary). -/
structure FPEvent (K : Type) where
  imp : Impact K
  kind : FPKind
  n : ℕ

/-- `inverse_repeat` with an array of repeats (sec_emission_model_furman_pivi.py:355-361):
`a.take(cumsum(repeats) - 1)`; the index `-1` wraps to the last entry. -/
def inverseRepeat (a : List Bool) (reps : List ℕ) : List Bool :=
  let rec go (acc : ℕ) : List ℕ → List Bool
    | [] => []
    | r :: rs => a.getD (if acc + r = 0 then a.length - 1 else acc + r - 1) false :: go (acc + r) rs
  go 0 reps

/-- Energy generator for true secondaries: `get_energy_true_sec(nn, E_0)` with its draws
(sec_emission_model_furman_pivi.py:333-353). -/
abbrev TrueGen (K : Type) := List ℕ → List K → Except PyErr (List K)

/-- The energy conservation loop (sec_emission_model_furman_pivi.py:455-481). `ns`, `es`, `nadd` are the
numbers emitted, the impact energies and the numbers added for the true secondary events with at least one
emission; each entry of `rounds` provides the generators for the new and for the replaced. -/
def conserveLoop (ns : List ℕ) (es : List K) (nadd : List ℕ) :
    List (TrueGen K × TrueGen K) → List K → List K → Except PyErr (List K × List K)
  | rounds, en1, en2 =>
    let esAdd := npRepeat es nadd
    let viol := (((npRepeat en1 nadd).zip en2).zip esAdd).map (fun q => decide (q.2 < q.1.1 + q.1.2))
    let violRep := inverseRepeat viol nadd
    if viol.all (fun b => !b) then .ok (en1, en2)
    else match rounds with
      | [] => .error .stillRunning
      | g :: rs =>
        match g.1 (maskSel (npRepeat ns nadd) viol) (maskSel esAdd viol) with
        | .error e => .error e
        | .ok r2 =>
          match g.2 (maskSel ns violRep) (maskSel es violRep) with
          | .error e => .error e
          | .ok r1 => conserveLoop ns es nadd rs (maskPut en1 violRep r1) (maskPut en2 viol r2)

/-- Draws of one call of `impacts_on_surface`. -/
structure FPGens (K : Type) where
  back : List K → List K
  red : List K → List K
  true1 : TrueGen K
  true2 : TrueGen K
  rounds : List (TrueGen K × TrueGen K)
  angBack : ℕ → K → K → K → K × K × K
  angRed : ℕ → K → K → K → K × K × K
  ang1 : ℕ → K → K → K → K × K × K
  ang2 : ℕ → K → K → K → K × K × K

/-- Velocities written by `angle_dist_func` to the masked entries. -/
def putVel (rep : List (Emit K)) (imps : List (Impact K)) (mask : List Bool) (ens : List K)
    (ang : ℕ → K → K → K → K × K × K) : List (Emit K) :=
  let vel := ((maskSel imps mask).zip ens).mapIdx (fun k q => ang k q.2 q.1.nx q.1.ny)
  maskPut rep mask (((maskSel rep mask).zip vel).map (fun q => q.1.setV q.2))

/-- `n_add` (sec_emission_model_furman_pivi.py:437-438). -/
def FPEvent.nAdd (e : FPEvent K) : ℕ := e.n - 1

/-- `n_emit_MPs` (sec_emission_model_furman_pivi.py:516-519). -/
def FPEvent.nEmit (e : FPEvent K) : ℕ := if e.kind = .true' then e.n else 1

/-- `event_type` (sec_emission_model_furman_pivi.py:522-529): 0 elastic, 1 true, 2 rediffused, 3 absorbed. -/
def FPEvent.code (excl : Bool) (e : FPEvent K) : ℕ :=
  let ev := if e.nEmit = 0 then 3 else if e.kind = .true' then 1 else 0
  if excl then ev else ev + 2 * (if e.kind = .rediff then 1 else 0)

/-- true secondary event that emits something -/
def FPEvent.alive (e : FPEvent K) : Bool := decide (e.kind = .true') && decide (0 < e.n)

/-- true secondary event that emits nothing -/
def FPEvent.dead (e : FPEvent K) : Bool := decide (e.kind = .true') && decide (e.n = 0)

/-- `x_replace[...] = 0.` etc. for absorbed impacts (sec_emission_model_furman_pivi.py:495-503). -/
def Emit.kill (e : Emit K) : Emit K :=
  { e with nel := 0, vx := 0, vy := 0, vz := 0, x := 0, y := 0, z := 0 }

/-- The replaced macroparticles after the elastic and rediffused treatment
(sec_emission_model_furman_pivi.py:370-398). -/
def fpReplace (c : FPCfg) (g : FPGens K) (evs : List (FPEvent K)) : List (Emit K) :=
  let imps := evs.map (fun e => e.imp)
  let base := imps.map (fun i => Emit.ofImpact i i.nel)
  let back := evs.map (fun e => decide (e.kind = .back))
  let red := evs.map (fun e => decide (e.kind = .rediff))
  let rep1 := if c.useEcloudEnergy then
      evs.map (fun e => if e.kind = .back then
        { Emit.ofImpact e.imp e.imp.nel with
          vx := (specular e.imp.vx e.imp.vy e.imp.nx e.imp.ny e.imp.vn).1,
          vy := (specular e.imp.vx e.imp.vy e.imp.nx e.imp.ny e.imp.vn).2 }
        else Emit.ofImpact e.imp e.imp.nel)
    else putVel base imps back (g.back ((maskSel imps back).map (fun i => i.en))) g.angBack
  if c.excludeRediffused then rep1
  else putVel rep1 imps red (g.red ((maskSel imps red).map (fun i => i.en))) g.angRed

/-- The true-secondary part (sec_emission_model_furman_pivi.py:401-513): replaced and new macroparticles. -/
def fpTrue (c : FPCfg) (g : FPGens K) (evs : List (FPEvent K)) (rep : List (Emit K)) :
    Except PyErr (List (Emit K) × List (Emit K)) :=
  let imps := evs.map (fun e => e.imp)
  if evs.any (fun e => decide (e.kind = .true')) then
    let alive := evs.map FPEvent.alive
    let live := evs.filter FPEvent.alive
    match g.true1 (live.map (fun e => e.n)) (live.map (fun e => e.imp.en)) with
    | .error e => .error e
    | .ok en1 =>
      let nadd := evs.map FPEvent.nAdd
      let kill := fun rep : List (Emit K) => (evs.zip rep).map (fun q => if q.1.dead then q.2.kill else q.2)
      if nadd.sum = 0 then .ok (kill rep, [])
      else
        let par := npRepeat imps nadd
        match g.true2 (npRepeat (evs.map (fun e => e.n)) nadd) (par.map (fun i => i.en)) with
        | .error e => .error e
        | .ok en2 =>
          match (if c.conserveEnergy then
              conserveLoop (live.map (fun e => e.n)) (live.map (fun e => e.imp.en)) (live.map FPEvent.nAdd) g.rounds en1 en2
            else .ok (en1, en2)) with
          | .error e => .error e
          | .ok q =>
            let rep' := putVel rep imps alive q.1 g.ang1
            let vel2 := (par.zip q.2).mapIdx (fun k p => g.ang2 k p.2 p.1.nx p.1.ny)
            .ok (kill rep', ((par.map (fun i => Emit.ofImpact i i.nel)).zip vel2).map (fun p => p.1.setV p.2))
  else .ok (rep, [])

/-- `impacts_on_surface` after the event selection (sec_emission_model_furman_pivi.py:370-543): emitted
macroparticles and event types. -/
def seyFP (c : FPCfg) (g : FPGens K) (evs : List (FPEvent K)) : Except PyErr (SeyOut K × List ℕ) :=
  match fpTrue c g evs (fpReplace c g evs) with
  | .error e => .error e
  | .ok q => .ok (⟨evs.map (fun e => e.imp.nel * (e.nEmit : K)), q.1, q.2⟩,
      evs.map (FPEvent.code c.excludeRediffused))

/-- The whole of `impacts_on_surface` (sec_emission_model_furman_pivi.py:363-543) for impacts with yields
`de`, `dr`: event selection with draws `u`, Poisson numbers `first` (for the `k`-th true secondary; the
numbers of the others are not used) truncated with `draws`, emission. -/
def seyFPModel (c : FPCfg) (g : FPGens K) (yields : Impact K → K × K) (u : ℕ → K) (first : ℕ → ℕ)
    (draws : ℕ → ℕ → ℕ) (imps : List (Impact K)) : Except PyErr (SeyOut K × List ℕ) :=
  match fpProcess c.excludeRediffused (imps.map yields) u with
  | .error e => .error e
  | .ok kinds =>
    let tr := kinds.map (fun k => decide (k = .true'))
    match poissonCut c.mCut draws 12 0 ((List.range (countTrue tr)).map first) with
    | .error e => .error e
    | .ok ns =>
      let n := maskPut (List.replicate imps.length 0) tr ns
      seyFP c g ((imps.zip (kinds.zip n)).map (fun q => ⟨q.1, q.2.1, q.2.2⟩))

end PyECLOUD
