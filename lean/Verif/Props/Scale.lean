import Verif.Lemmas.ScaleSim
import Verif.Props.SimStep
import Verif.Model.FurmanPivi

/-!
# Multiplying all charges: C152
-/

set_option linter.unusedSectionVars false

namespace PyECLOUD

section

variable {K : Type} [Field K] [LinearOrder K] [IsStrictOrderedRing K] [FloorRing K]

/-- **C152**: for a given motion and the same draws, without cross ionisation and with yields that do not depend on the sizes,
multiplying all sizes and source rates by a factor multiplies all charges and energies of the run, at any time, by that factor and changes
nothing else: numbers, positions and velocities of the macroparticles are the same, also after cleaning and regenerations, and
a run that raises an exception raises the same. -/
theorem C152_scaling (l : K) (hl : 0 < l) (S : SimCfg K) (steps : List (StepIn K)) (st : SimSt K) (hc : st.cross = none)
    (hs : ∀ inp ∈ steps, ∀ i, SeyLinear (inp.sey i)) :
    simulate (S.scl l) steps (st.scl l) = (simulate S steps st).map (SimSt.scl l) := by
  induction steps generalizing st with
  | nil => rfl
  | cons inp steps ih =>
    simp only [simulate, simTimeStep]
    have hlen : (st.scl l).clouds.length = st.clouds.length := by simp [SimSt.scl]
    obtain ⟨h1, h2⟩ := simRun_scl l hl S (inp.ops S st.clouds.length) st hc (ops_linear S inp _ (hs inp (by simp)))
    rw [hlen, ops_scl, h1]
    cases hr : simRun S (inp.ops S st.clouds.length) st with
    | error e => rfl
    | ok st' => exact ih st' (h2 st' hr) (fun i h => hs i (by simp [h]))

/-- **C152**, the cloud at the beginning: a new `MP_system` with the reference size multiplied. -/
theorem C152_init (l : K) (n : ℕ) (ref0 fs fc : K) (life : Bool) :
    MPs.init n (l * ref0) fs fc life = (MPs.init n ref0 fs fc life).scl l := by
  apply MPs.ext' <;> try rfl
  · funext f
    rw [scl_arr]
    simp only [MPs.init]
    by_cases hf : f = .tl
    · subst hf
      rw [if_pos rfl, map_sclFld l (by decide)]
    · rw [if_neg hf]
      simp [sclFld_zero]
  · simp only [MPs.init, MPs.scl]
    ring
  · simp only [MPs.init, MPs.scl]
    ring

theorem uniSrc_scl (l : K) (s : MPs K) (v0 : K) (d : UniDraws K) (pts : List (Unit × K × K)) (f : Fld) :
    uniSrc (s.scl l) v0 d pts f = (uniSrc s v0 d pts f).map (sclFld l f) := by
  refine src_scl l (uniSrc s v0 d pts) (uniSrc (s.scl l) v0 d pts) ?_ ?_ f
  · intro f hf
    cases f <;> first | rfl | exact absurd rfl hf
  · rfl

/-- **C152**, the cloud at the beginning: uniform populations. -/
theorem C152_uniform (l : K) (hl : 0 < l) (s : MPs K) (outside : K → K → Bool) (r : Rect K) (v0 dNel : K) (d : UniDraws K) :
    (s.scl l).addUniform outside r v0 (l * dNel) d = (s.addUniform outside r v0 dNel d).map (MPs.scl l) := by
  unfold MPs.addUniform
  dsimp only
  rw [scl_ref, mul_div_mul_left _ _ hl.ne']
  generalize (stochRound (dNel / s.ref) d.u).toNat = n
  split
  · split
    · rfl
    · rename_i pts _
      show (match assignAll (fun f => (s.arr f).map (sclFld l f)) Fld.main s.nmp (s.nmp + n) (uniSrc (s.scl l) v0 d pts) with
        | .error e => Except.error e
        | .ok arr1 => _) = _
      rw [assignAll_scl l s.arr _ _ _ _ _ (uniSrc_scl l s v0 d pts)]
      cases assignAll s.arr Fld.main s.nmp (s.nmp + n) (uniSrc s v0 d pts) with
      | error e => rfl
      | ok arr1 =>
        simp only [Except.map]
        cases hlf : s.lifetime with
        | false =>
          simp only [scl_life, hlf]
          simp only [MPs.scl, hlf, Bool.false_eq_true, if_false]
        | true =>
          simp only [scl_life, scl_nmp, hlf, if_true]
          rw [assignAll_scl l arr1 _ _ _ _ _ (uniSrc_scl l s v0 d pts)]
          cases assignAll arr1 [Fld.tl] (s.nmp + n) (s.nmp + n + n) (uniSrc s v0 d pts) with
          | error e => rfl
          | ok arr2 => simp only [Except.map, MPs.scl, hlf]
  · rfl

/-! ## Emission models -/

/-- **C152**: the perfect absorber has yields that do not depend on the sizes. -/
theorem C152_absorber : SeyLinear (fun (_ : K) imps => .ok (seyAbsorber imps)) := by
  intro l _ th imps
  simp only [Except.map, seyAbsorber, SeyOut.scl, List.map_map, List.map_nil]
  congr 2
  · apply List.map_congr_left
    intro i _
    simp
  · apply List.map_congr_left
    intro i _
    simp [Emit.ofImpact, Emit.scl, Impact.scl]

theorem nAdd_scl (l : K) (hl : 0 < l) (th nel : K) (b : Bool) : nAdd (l * th) (l * nel) b = nAdd th nel b := by
  unfold nAdd
  rw [mul_div_mul_left _ _ hl.ne']

theorem baseReplace_scl (l : K) (hl : 0 < l) (th : K) (i : Impact K) (nel : K) (b : Bool) :
    baseReplace (l * th) (i.scl l) (l * nel) b = (baseReplace th i nel b).scl l := by
  unfold baseReplace
  rw [nAdd_scl l hl]
  split
  · rfl
  · simp only [Emit.ofImpact, Emit.scl, Impact.scl, mul_div_assoc]

theorem seyECLOUD_scl (l : K) (hl : 0 < l) (hill1 hill2 : List K → Except PyErr (List K)) (ang1 ang2 : ℕ → K → K → K → K × K × K)
    (th : K) (evs : List (Impact K × K × Bool)) :
    seyECLOUD hill1 hill2 ang1 ang2 (l * th) (evs.map (fun e => (e.1.scl l, l * e.2.1, e.2.2))) =
      (seyECLOUD hill1 hill2 ang1 ang2 th evs).map (SeyOut.scl l) := by
  unfold seyECLOUD
  simp only [List.map_map, Function.comp_def, nAdd_scl l hl, baseReplace_scl l hl]
  have e1 : evs.map (fun e => (baseReplace th e.1 e.2.1 e.2.2).scl l) =
      (evs.map (fun e => baseReplace th e.1 e.2.1 e.2.2)).map (Emit.scl l) := by rw [List.map_map]; rfl
  have e2 : evs.map (fun e => e.1.scl l) = (evs.map (fun e => e.1)).map (Impact.scl l) := by rw [List.map_map]; rfl
  have e3 : evs.map (fun e => (e.1.scl l).en) = evs.map (fun e => e.1.en) := rfl
  have e4 : evs.map (fun e => l * e.2.1) = (evs.map (fun e => e.2.1)).map (l * ·) := by rw [List.map_map]; rfl
  have e5 : evs.map (fun e => ((baseReplace th e.1 e.2.1 e.2.2).scl l).nel) =
      (evs.map (fun e => (baseReplace th e.1 e.2.1 e.2.2).nel)).map (l * ·) := by rw [List.map_map]; rfl
  rw [e1, e2, e3, e4, e5]
  have set : ∀ (a : List (Emit K)) (v : List (K × K × K)), (((a.map (Emit.scl l)).zip v).map (fun q => q.1.setV q.2)) =
      ((a.zip v).map (fun q => q.1.setV q.2)).map (Emit.scl l) := by
    intro a v
    rw [List.zip_map_left, List.map_map, List.map_map]
    rfl
  have vel : ∀ (ang : ℕ → K → K → K → K × K × K) (a : List (Impact K)) (en : List K),
      ((a.map (Impact.scl l)).zip en).mapIdx (fun k q => ang k q.2 q.1.nx q.1.ny) =
        (a.zip en).mapIdx (fun k q => ang k q.2 q.1.nx q.1.ny) := by
    intro ang a en
    apply List.ext_getElem
    · simp
    · intro k h1 h2
      simp [Impact.scl]
  split
  · rfl
  · cases hill1 (maskSel (evs.map (fun e => e.1.en)) (evs.map (fun e => !e.2.2))) with
    | error e => rfl
    | ok en1 =>
      dsimp only
      rw [← maskSel_map (Impact.scl l), ← maskSel_map (Emit.scl l), vel, set, ← maskPut_map]
      split
      · rfl
      · rw [← npRepeat_map (Impact.scl l), ← npRepeat_map (l * ·)]
        generalize npRepeat (evs.map (fun e => e.1)) (evs.map (fun e => nAdd th e.2.1 e.2.2)) = par
        generalize npRepeat (evs.map (fun e => (baseReplace th e.1 e.2.1 e.2.2).nel)) (evs.map (fun e => nAdd th e.2.1 e.2.2)) = ns
        rw [show (par.map (Impact.scl l)).map (fun i => i.en) = par.map (fun i => i.en) by rw [List.map_map]; rfl]
        cases hill2 (par.map (fun i => i.en)) with
        | error e => rfl
        | ok en2 =>
          dsimp only
          rw [vel, List.zip_map,
            show ((par.zip ns).map (Prod.map (Impact.scl l) (l * ·))).map (fun q => Emit.ofImpact q.1 q.2) =
              ((par.zip ns).map (fun q => Emit.ofImpact q.1 q.2)).map (Emit.scl l) by rw [List.map_map, List.map_map]; rfl, set]
          rfl

/-- **C152**: the ECLOUD emission has yields that do not depend on the sizes when its `SEY_process` multiplies the charge of the
impact by a number that depends on the other properties of the impact. -/
theorem C152_ecloud (proc : ℕ → Impact K → K × Bool) (hill1 hill2 : List K → Except PyErr (List K))
    (ang1 ang2 : ℕ → K → K → K → K × K × K)
    (hp : ∀ l : K, 0 < l → ∀ k i, proc k (i.scl l) = (l * (proc k i).1, (proc k i).2)) :
    SeyLinear (seyEcloudModel proc hill1 hill2 ang1 ang2) := by
  intro l hl th imps
  unfold seyEcloudModel
  rw [← seyECLOUD_scl l hl]
  congr 1
  apply List.ext_getElem
  · simp
  · intro k h1 h2
    simp [hp l hl]

theorem putVel_scl (l : K) (rep : List (Emit K)) (imps : List (Impact K)) (mask : List Bool) (ens : List K)
    (ang : ℕ → K → K → K → K × K × K) : putVel (rep.map (Emit.scl l)) (imps.map (Impact.scl l)) mask ens ang =
      (putVel rep imps mask ens ang).map (Emit.scl l) := by
  unfold putVel
  dsimp only
  rw [maskPut_map, ← maskSel_map (Emit.scl l), ← maskSel_map (Impact.scl l)]
  congr 1
  rw [List.zip_map_left, List.map_map, List.map_map]
  have : (((maskSel imps mask).map (Impact.scl l)).zip ens).mapIdx (fun k q => ang k q.2 q.1.nx q.1.ny) =
      ((maskSel imps mask).zip ens).mapIdx (fun k q => ang k q.2 q.1.nx q.1.ny) := by
    apply List.ext_getElem
    · simp
    · intro k h1 h2
      simp [Impact.scl]
  rw [this]
  rfl

/-- an event with the charge of its impact multiplied -/
def FPEvent.scl (l : K) (e : FPEvent K) : FPEvent K := { e with imp := e.imp.scl l }

theorem fpReplace_scl (l : K) (c : FPCfg) (g : FPGens K) (evs : List (FPEvent K)) :
    fpReplace c g (evs.map (FPEvent.scl l)) = (fpReplace c g evs).map (Emit.scl l) := by
  unfold fpReplace
  have e1 : (evs.map (FPEvent.scl l)).map (fun e => e.imp) = (evs.map (fun e => e.imp)).map (Impact.scl l) := by
    rw [List.map_map, List.map_map]; rfl
  have e2 : ((evs.map (fun e => e.imp)).map (Impact.scl l)).map (fun i => Emit.ofImpact i i.nel) =
      ((evs.map (fun e => e.imp)).map (fun i => Emit.ofImpact i i.nel)).map (Emit.scl l) := by
    simp only [List.map_map]; rfl
  have e3 : ∀ k : FPKind, (evs.map (FPEvent.scl l)).map (fun e => decide (e.kind = k)) = evs.map (fun e => decide (e.kind = k)) := by
    intro k; rw [List.map_map]; rfl
  have e4 : ∀ m : List Bool, (maskSel ((evs.map (fun e => e.imp)).map (Impact.scl l)) m).map (fun i => i.en) =
      (maskSel (evs.map (fun e => e.imp)) m).map (fun i => i.en) := by
    intro m
    rw [← maskSel_map (Impact.scl l), List.map_map]
    rfl
  have e5 : (evs.map (FPEvent.scl l)).map (fun e => if e.kind = .back then
        { Emit.ofImpact e.imp e.imp.nel with
          vx := (specular e.imp.vx e.imp.vy e.imp.nx e.imp.ny e.imp.vn).1,
          vy := (specular e.imp.vx e.imp.vy e.imp.nx e.imp.ny e.imp.vn).2 }
        else Emit.ofImpact e.imp e.imp.nel) = (evs.map (fun e => if e.kind = .back then
        { Emit.ofImpact e.imp e.imp.nel with
          vx := (specular e.imp.vx e.imp.vy e.imp.nx e.imp.ny e.imp.vn).1,
          vy := (specular e.imp.vx e.imp.vy e.imp.nx e.imp.ny e.imp.vn).2 }
        else Emit.ofImpact e.imp e.imp.nel)).map (Emit.scl l) := by
    rw [List.map_map, List.map_map]
    apply List.map_congr_left
    intro e _
    simp only [Function.comp]
    show (if e.kind = .back then _ else _) = _
    split <;> rfl
  dsimp only
  rw [e1, e2, e3, e3, e4, e4, e5, putVel_scl]
  split
  · split
    · rfl
    · rfl
  · split
    · rw [putVel_scl]
    · rw [putVel_scl]

theorem fpTrue_scl (l : K) (c : FPCfg) (g : FPGens K) (evs : List (FPEvent K)) (rep : List (Emit K)) :
    fpTrue c g (evs.map (FPEvent.scl l)) (rep.map (Emit.scl l)) =
      (fpTrue c g evs rep).map (fun q => (q.1.map (Emit.scl l), q.2.map (Emit.scl l))) := by
  unfold fpTrue
  have e1 : (evs.map (FPEvent.scl l)).map (fun e => e.imp) = (evs.map (fun e => e.imp)).map (Impact.scl l) := by
    rw [List.map_map, List.map_map]; rfl
  have e2 : (evs.map (FPEvent.scl l)).map FPEvent.alive = evs.map FPEvent.alive := by rw [List.map_map]; rfl
  have e3 : (evs.map (FPEvent.scl l)).filter FPEvent.alive = (evs.filter FPEvent.alive).map (FPEvent.scl l) := by
    rw [List.filter_map]; rfl
  have e4 : ∀ a : List (FPEvent K), (a.map (FPEvent.scl l)).map (fun e => e.n) = a.map (fun e => e.n) := by
    intro a; rw [List.map_map]; rfl
  have e5 : ∀ a : List (FPEvent K), (a.map (FPEvent.scl l)).map (fun e => e.imp.en) = a.map (fun e => e.imp.en) := by
    intro a; rw [List.map_map]; rfl
  have e6 : ∀ a : List (FPEvent K), (a.map (FPEvent.scl l)).map FPEvent.nAdd = a.map FPEvent.nAdd := by
    intro a; rw [List.map_map]; rfl
  have e7 : (evs.map (FPEvent.scl l)).any (fun e => decide (e.kind = .true')) = evs.any (fun e => decide (e.kind = .true')) := by
    rw [List.any_map]; rfl
  have kill : ∀ rep : List (Emit K), ((evs.map (FPEvent.scl l)).zip (rep.map (Emit.scl l))).map
      (fun q => if q.1.dead then q.2.kill else q.2) =
        ((evs.zip rep).map (fun q => if q.1.dead then q.2.kill else q.2)).map (Emit.scl l) := by
    intro rep
    rw [List.zip_map, List.map_map, List.map_map]
    apply List.map_congr_left
    intro q _
    simp only [Function.comp, Prod.map]
    show (if q.1.dead then _ else _) = _
    split
    · simp [Emit.kill, Emit.scl]
    · rfl
  dsimp only
  rw [e1, e2, e3, e4, e4, e5, e6, e6, e7]
  split
  · cases g.true1 ((evs.filter FPEvent.alive).map (fun e => e.n)) ((evs.filter FPEvent.alive).map (fun e => e.imp.en)) with
    | error e => rfl
    | ok en1 =>
      dsimp only
      split
      · rw [kill]
        rfl
      · rw [← npRepeat_map (Impact.scl l)]
        generalize npRepeat (evs.map (fun e => e.imp)) (evs.map FPEvent.nAdd) = par
        rw [show (par.map (Impact.scl l)).map (fun i => i.en) = par.map (fun i => i.en) by rw [List.map_map]; rfl]
        cases g.true2 (npRepeat (evs.map (fun e => e.n)) (evs.map FPEvent.nAdd)) (par.map (fun i => i.en)) with
        | error e => rfl
        | ok en2 =>
          dsimp only
          generalize (if c.conserveEnergy = true then conserveLoop ((evs.filter FPEvent.alive).map (fun e => e.n))
            ((evs.filter FPEvent.alive).map (fun e => e.imp.en)) ((evs.filter FPEvent.alive).map FPEvent.nAdd) g.rounds en1 en2
            else Except.ok (en1, en2)) = w
          cases w with
          | error e => rfl
          | ok q =>
            simp only [Except.map]
            rw [putVel_scl, kill]
            congr 2
            have v : ((par.map (Impact.scl l)).zip q.2).mapIdx (fun k p => g.ang2 k p.2 p.1.nx p.1.ny) =
                (par.zip q.2).mapIdx (fun k p => g.ang2 k p.2 p.1.nx p.1.ny) := by
              apply List.ext_getElem
              · simp
              · intro k h1 h2
                simp [Impact.scl]
            rw [v, show (par.map (Impact.scl l)).map (fun i => Emit.ofImpact i i.nel) =
              (par.map (fun i => Emit.ofImpact i i.nel)).map (Emit.scl l) by rw [List.map_map, List.map_map]; rfl,
              List.zip_map_left, List.map_map, List.map_map]
            rfl
  · rfl

/-- **C152**: the Furman-Pivi emission has yields that do not depend on the sizes when its yields are those of energy and angle. -/
theorem C152_furman_pivi (c : FPCfg) (g : FPGens K) (yields : Impact K → K × K) (u : ℕ → K) (first : ℕ → ℕ)
    (draws : ℕ → ℕ → ℕ) (hy : ∀ (l : K) i, yields (i.scl l) = yields i) :
    SeyLinear (fun (_ : K) imps => (seyFPModel c g yields u first draws imps).map (fun r => r.1)) := by
  intro l _ th imps
  dsimp only
  unfold seyFPModel
  have h1 : (imps.map (Impact.scl l)).map yields = imps.map yields := by
    rw [List.map_map]
    apply List.map_congr_left
    intro i _
    exact hy l i
  rw [h1, List.length_map]
  cases fpProcess c.excludeRediffused (imps.map yields) u with
  | error e => rfl
  | ok kinds =>
    dsimp only
    cases poissonCut c.mCut draws 12 0 ((List.range (countTrue (kinds.map (fun k => decide (k = .true'))))).map first) with
    | error e => rfl
    | ok ns =>
      dsimp only
      rw [List.zip_map_left]
      generalize imps.zip (kinds.zip (maskPut (List.replicate imps.length 0) (kinds.map (fun k => decide (k = .true'))) ns)) = z
      have hz : (z.map (Prod.map (Impact.scl l) id)).map (fun q => (⟨q.1, q.2.1, q.2.2⟩ : FPEvent K)) =
          (z.map (fun q => (⟨q.1, q.2.1, q.2.2⟩ : FPEvent K))).map (FPEvent.scl l) := by
        rw [List.map_map, List.map_map]
        rfl
      rw [hz]
      generalize z.map (fun q => (⟨q.1, q.2.1, q.2.2⟩ : FPEvent K)) = evs
      unfold seyFP
      rw [fpReplace_scl, fpTrue_scl]
      cases fpTrue c g evs (fpReplace c g evs) with
      | error e => rfl
      | ok q =>
        simp only [Except.map, SeyOut.scl]
        congr 2
        rw [List.map_map, List.map_map]
        apply List.map_congr_left
        intro e _
        simp only [Function.comp]
        show l * e.imp.nel * _ = _
        rw [mul_assoc]
        rfl

end

theorem slabSey_linear : SeyLinear slabSey :=
  C152_ecloud _ _ _ _ _ (fun l _ k i => by simp only [Impact.scl]; rw [mul_assoc])

/-- a simulation of two clouds and two steps, with gas ionisation, impacts, cleaning and full regenerations, that meets the
hypotheses; sizes are multiplied by 3 -/
example : simExSt.cross = none ∧ (∀ i, SeyLinear ((simExStep true).sey i)) ∧ (∀ i, SeyLinear ((simExStep false).sey i)) ∧
    ∃ r, simulate ((simExCfg 5).scl 3) [simExStep false, simExStep true] (simExSt.scl 3) = .ok r ∧
      r.charge 0 = 3 * 61 ∧ r.clouds.map (fun c : XCloud ℚ => (c.mps.nmp, c.mps.ref)) = [(2, 3 * (61 / 2)), (2, 3 * 4)] :=
  ⟨rfl, fun _ => slabSey_linear, fun _ => slabSey_linear, exists_ok (by decide +kernel)⟩

/-- yields of energy and angle -/
example : ∀ (l : ℚ) (i : Impact ℚ), (fun i : Impact ℚ => (i.en / (1 + i.en), i.cth)) (i.scl l) =
    (fun i : Impact ℚ => (i.en / (1 + i.en), i.cth)) i := fun _ _ => rfl

end PyECLOUD
