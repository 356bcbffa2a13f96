import Verif.Spec.Coupled
import Verif.Props.Solo
import Verif.Props.Observed
import Verif.Props.Timing
import Verif.Props.Grid

/-! # C145: the simulation with its fields -/

set_option linter.unusedSectionVars false

namespace PyECLOUD

variable {K G : Type} [Field K] [LinearOrder K] [IsStrictOrderedRing K] [FloorRing K] [AddCommGroup G]

/-! ## the clouds of the coupled run are those of SimStep -/

theorem cplTurns_motion (C : CplCfg K G) (inp : CplIn K) (f : K → K → K × K) (l : List ℕ) (hl : l.Nodup) (st st1 : SimSt K)
    (h : cplTurns C inp f l st = .ok st1) :
    ∃ mot : ℕ → ℕ → Phase K → Phase K,
      simRun C.S (l.flatMap (fun i => SimOp.track i (mot i) (inp.step.sey i) inp.step.tt :: inp.step.primaryOps C.S i)) st = .ok st1 := by
  induction l generalizing st with
  | nil => exact ⟨fun _ _ p => p, h⟩
  | cons i l ih =>
    obtain ⟨hi, hl'⟩ := List.nodup_cons.1 hl
    simp only [cplTurns] at h
    split at h
    · cases h
    · next st2 h2 =>
      obtain ⟨mot, hm⟩ := ih hl' st2 h
      unfold cplTurn at h2
      split at h2
      · cases h2
      · split at h2
        · cases h2
        · next m hm2 =>
          refine ⟨Function.update mot i (fun k _ => m.phase k), ?_⟩
          rw [List.flatMap_cons, simRun_append]
          simp only [Function.update_self]
          rw [h2]
          simp only
          rw [← hm]
          congr 1
          apply List.flatMap_congr
          intro j hj
          have : j ≠ i := fun e => hi (e ▸ hj)
          simp only [Function.update_of_ne this]

theorem primaryOps_motion (S : SimCfg K) (inp : StepIn K) (mot : ℕ → ℕ → Phase K → Phase K) (i : ℕ) :
    ({ inp with motion := mot } : StepIn K).primaryOps S i = inp.primaryOps S i := rfl

theorem cplStep_clouds (C : CplCfg K G) (inp : CplIn K) (st st1 : CplSt K G) (h : cplStep C inp st = .ok st1) :
    ∃ mot, simTimeStep C.S { inp.step with motion := mot } st.sim = .ok st1.sim := by
  unfold cplStep at h
  simp only at h
  split at h
  · cases h
  · next s1 h1 =>
    split at h
    · cases h
    · next s2 h2 =>
      split at h
      · cases h
      · next s3 h3 =>
        cases h
        obtain ⟨mot, hm⟩ := cplTurns_motion C inp _ _ List.nodup_range _ _ h1
        refine ⟨mot, ?_⟩
        unfold simTimeStep
        rw [ops_split, simRun_append]
        have e1 : simRun C.S (StepIn.moveOps C.S st.sim.clouds.length { inp.step with motion := mot }) st.sim = .ok s2 := by
          unfold StepIn.moveOps
          rw [simRun_append]
          simp only [primaryOps_motion]
          rw [hm]
          exact h2
        rw [e1]
        have l1 := simRun_length C.S _ _ _ hm
        have l2 := simRun_length C.S _ _ _ h2
        rw [l2, l1] at h3
        exact h3

/-- **C145 (a).** Whatever the fields, the solver and the trackers: the clouds, histograms and counters of a simulation with its fields
are those of a run of the time steps of `SimStep` for some motion of the macroparticles. Theorems on those runs for arbitrary motion
(C89, C90, C109) hold for it. -/
theorem C145_clouds (C : CplCfg K G) (inps : List (CplIn K)) (st st1 : CplSt K G) (h : cplRun C inps st = .ok st1) :
    ∃ steps : List (StepIn K), List.Forall₂ (fun inp s => ∃ mot, s = { inp.step with motion := mot }) inps steps ∧
      simulate C.S steps st.sim = .ok st1.sim := by
  induction inps generalizing st with
  | nil => cases h; exact ⟨[], .nil, rfl⟩
  | cons inp inps ih =>
    simp only [cplRun] at h
    split at h
    · cases h
    · next st2 h2 =>
      obtain ⟨mot, hm⟩ := cplStep_clouds C inp st st2 h2
      obtain ⟨steps, hf, hs⟩ := ih st2 h
      refine ⟨_ :: steps, .cons ⟨mot, rfl⟩ hf, ?_⟩
      simp only [simulate, hm]
      exact hs

/-! ## motion -/

theorem phase_push (s : MPs K) (g : ℕ → Phase K → Phase K) (k : ℕ) (hk : k < s.nmp) : (s.push g).phase k = g k (s.phase k) := by
  unfold MPs.push
  rw [if_pos (by omega)]
  unfold MPs.phase
  simp only [List.map_map]
  simp only [setPrefix_map_getD _ _ _ _ hk]
  rfl

theorem push_congr (s : MPs K) (g g' : ℕ → Phase K → Phase K) (h : ∀ k < s.nmp, g k (s.phase k) = g' k (s.phase k)) :
    s.push g = s.push g' := by
  have e : (List.range s.nmp).map (fun i : ℕ => g i (s.phase i)) = (List.range s.nmp).map (fun i : ℕ => g' i (s.phase i)) :=
    List.map_congr_left (fun i hi => h i (List.mem_range.1 hi))
  unfold MPs.push
  simp only [e]

theorem setPrefix_setPrefix {α : Type} (a b c : List α) (h : b.length = c.length) : setPrefix (setPrefix a b) c = setPrefix a c := by
  unfold setPrefix
  rw [← h, List.drop_left]

theorem push_push (s : MPs K) (g g' : ℕ → Phase K → Phase K) : (s.push g).push g' = s.push (fun k p => g' k (g k p)) := by
  by_cases h0 : s.nmp > 0
  · have e : (List.range s.nmp).map (fun i : ℕ => g' i ((s.push g).phase i)) =
        (List.range s.nmp).map (fun i : ℕ => g' i (g i (s.phase i))) :=
      List.map_congr_left (fun i hi => by rw [phase_push s g i (List.mem_range.1 hi)])
    have hn : (s.push g).nmp = s.nmp := push_nmp s g
    rw [MPs.push, hn, if_pos h0]
    simp only [e]
    unfold MPs.push
    rw [if_pos h0, if_pos h0]
    congr 1
    funext f
    cases f <;> simp [setPrefix_setPrefix]
  · unfold MPs.push
    rw [if_neg h0, if_neg h0, if_neg h0]

theorem push_id (s : MPs K) (h : s.WF) : s.push (fun _ p => p) = s := by
  unfold MPs.push
  split
  · have e : ∀ f, setPrefix (s.arr f) ((List.range s.nmp).map (fun i => (s.arr f).getD i 0)) = s.arr f := by
      intro f
      have hl := h.len f
      have hf := h.fits
      unfold setPrefix
      apply List.ext_getElem
      · simp; omega
      · intro i h1 h2
        rw [List.getElem_append]
        split
        · simp [List.getD_eq_getElem?_getD, h2]
        · next hi => simp at hi ⊢; congr 1; omega
    have ha : (fun f => match f with
        | Fld.x => setPrefix (s.arr .x) (((List.range s.nmp).map (fun i : ℕ => s.phase i)).map (·.x))
        | .y => setPrefix (s.arr .y) (((List.range s.nmp).map (fun i : ℕ => s.phase i)).map (·.y))
        | .z => setPrefix (s.arr .z) (((List.range s.nmp).map (fun i : ℕ => s.phase i)).map (·.z))
        | .vx => setPrefix (s.arr .vx) (((List.range s.nmp).map (fun i : ℕ => s.phase i)).map (·.vx))
        | .vy => setPrefix (s.arr .vy) (((List.range s.nmp).map (fun i : ℕ => s.phase i)).map (·.vy))
        | .vz => setPrefix (s.arr .vz) (((List.range s.nmp).map (fun i : ℕ => s.phase i)).map (·.vz))
        | f => s.arr f) = s.arr := by
      funext f
      cases f <;> simp only [List.map_map] <;> first | exact e _ | rfl
    exact congrArg (fun a => ({ s with arr := a } : MPs K)) ha
  · rfl

theorem motionLoop_push (tr : TrackerObj K) (ht : tr.Pushes) (cf : MPs K → Fields K) (be : Option (MPs K → List K × List K)) (nint : ℕ)
    (d : Option K) (n : ℕ) (s s' : MPs K) (hs : s.WF) (h : motionLoop tr cf be nint d n s = .ok s') : ∃ g, s' = s.push g := by
  induction n generalizing s with
  | zero => cases h; exact ⟨_, (push_id _ hs).symm⟩
  | succ n ih =>
    simp only [motionLoop] at h
    split at h
    · cases h
    · next s2 h2 =>
      have : ∃ g, s2 = s.push g := by
        unfold motionOne at h2
        split at h2
        · exact ht.step _ _ _ h2
        · exact ht.custom _ _ _ _ _ h2
      obtain ⟨g, rfl⟩ := this
      obtain ⟨g', e⟩ := ih _ (push_WF s hs g) h
      exact ⟨_, e.trans (push_push s g g')⟩

theorem cloudMotion_push (b u : Bool) (custom : Option (ℕ × K)) (kick re : Bool) (tr : TrackerObj K) (ht : tr.Pushes) (qm dt : K)
    (cf : MPs K → Fields K) (be : MPs K → List K × List K) (s s' : MPs K) (hs : s.WF)
    (h : cloudMotion b u custom kick re tr qm dt cf be s = .ok s') : ∃ g, s' = s.push g := by
  unfold cloudMotion at h
  split at h
  · cases h
  · next mode hm =>
    simp only at h
    split at h
    · cases h
    · next s1 h1 =>
      split at h
      · cases h
      · next p hp =>
        have : ∃ g, s1 = s.push g := by
          split at h1
          · cases h1; exact ⟨_, (push_id _ hs).symm⟩
          · cases h1
          · cases h1; exact ⟨_, rfl⟩
        obtain ⟨g, rfl⟩ := this
        obtain ⟨g', e⟩ := motionLoop_push tr ht _ _ _ _ _ _ _ (push_WF s hs g) h
        exact ⟨_, e.trans (push_push s g g')⟩

/-- **C145 (b).** The turn of a cloud is its motion in the fields of the clouds and beams, the impacts and emission on the way from the
positions before to those after the motion, and the primaries. -/
theorem C145_turn (C : CplCfg K G) (inp : CplIn K) (f : K → K → K × K) (i : ℕ) (st : SimSt K) (cl : XCloud K)
    (hi : st.clouds[i]? = some cl) (hw : cl.mps.WF) (ht : (C.tr i).Pushes) :
    cplTurn C inp f i st =
      match cplMotion C inp f i cl.mps with
      | .error e => .error e
      | .ok m =>
        match impactStep C.S.sq (C.S.imp i) C.S.ch (inp.step.sey i) m cl.mps.positions inp.step.tt (st.hists i) with
        | .error e => .error e
        | .ok (m', h, n) => simRun C.S (inp.step.primaryOps C.S i)
            { st.put i m' with hists := Function.update st.hists i h, cnt := Function.update st.cnt i n } := by
  unfold cplTurn
  rw [hi]
  simp only
  cases hm : cplMotion C inp f i cl.mps with
  | error e => rfl
  | ok m =>
    obtain ⟨g, rfl⟩ := cloudMotion_push _ _ _ _ _ _ ht _ _ _ _ _ _ hw hm
    have e : cl.mps.push (fun k _ => (cl.mps.push g).phase k) = cl.mps.push g :=
      push_congr _ _ _ (fun k hk => phase_push _ g k hk)
    simp only [simRun, SimOp.apply, SimSt.track, hi, e]
    cases impactStep C.S.sq (C.S.imp i) C.S.ch (inp.step.sey i) (cl.mps.push g) cl.mps.positions inp.step.tt (st.hists i) <;> rfl

theorem borisObj_pushes (src : BSrc K) (b0 : V3 K) (qm dt : K) (n : ℕ) : (borisObj src b0 qm dt n).Pushes :=
  ⟨fun s f s' h => by cases h; exact ⟨_, rfl⟩, fun s f d n s' h => by cases h; exact ⟨_, rfl⟩⟩

/-! ## densities -/

theorem cplStep_parts (C : CplCfg K G) (inp : CplIn K) (st st1 : CplSt K G) (h : cplStep C inp st = .ok st1) :
    ∃ s1 s2, cplTurns C inp (st.field C) (List.range st.sim.clouds.length) st.sim = .ok s1 ∧
      simRun C.S [.cross inp.step.dt inp.step.xD] s1 = .ok s2 ∧ simRun C.S (inp.step.maintOps s2.clouds.length) s2 = .ok st1.sim ∧
      st1.rho = cplRho C inp (scCheck C.dtSc st.tLast inp.step.tt).1 s2 st.rho ∧ st1.tLast = (scCheck C.dtSc st.tLast inp.step.tt).2 := by
  unfold cplStep at h
  simp only at h
  split at h
  · cases h
  · next s1 h1 =>
    split at h
    · cases h
    · next s2 h2 =>
      split at h
      · cases h
      · next s3 h3 =>
        cases h
        exact ⟨s1, s2, h1, h2, h3, rfl, rfl⟩

theorem cplRho_due (C : CplCfg K G) (inp : CplIn K) (flag : Bool) (s : SimSt K) (rho : RhoSt G) (hn : s.clouds ≠ [])
    (hd : scDo C.tScOn inp.step.tt flag inp.force = true) :
    cplRho C inp flag s rho = ⟨(cplDeps C s).sum, cplDeps C s, rho.solved ++ [(cplDeps C s).sum]⟩ := by
  have hl : (cplDeps C s).length = s.clouds.length := by simp [cplDeps]
  have hne : cplDeps C s ≠ [] := by
    intro e
    rw [e] at hl
    exact hn (List.length_eq_zero_iff.1 hl.symm)
  unfold cplRho
  rw [if_pos hd, ← hl]
  obtain ⟨a, b, _, d⟩ := C43_cloud_densities (cplDeps C s) hne rho.rho rho.solved
  cases hr : rhoRound (cplDeps C s).length 0 (cplDeps C s) ⟨rho.rho, [], rho.solved⟩ with
  | mk x y z =>
    rw [hr] at a b d
    simp only at a b d
    rw [a, b, d]

/-- **C145 (c).** One time step: the clouds are moved, emit and are ionised (`mid`), then the field is recomputed if it is due or forced,
from the sum of the densities of all clouds as they are at that moment, then the clouds are cleaned. Each cloud is handed its own
density. If no recomputation is due, densities and field stay. -/
theorem C145_density (C : CplCfg K G) (inp : CplIn K) (st st1 : CplSt K G) (hn : st.sim.clouds ≠ []) (h : cplStep C inp st = .ok st1) :
    ∃ (mot : ℕ → ℕ → Phase K → Phase K) (mid : SimSt K),
      simRun C.S (StepIn.moveOps C.S st.sim.clouds.length { inp.step with motion := mot }) st.sim = .ok mid ∧
      simRun C.S (inp.step.maintOps st.sim.clouds.length) mid = .ok st1.sim ∧
      let dens := mid.clouds.mapIdx (fun i c => C.pic.scatter (C.charge i) c.mps.scatterArgs)
      let due := scDo C.tScOn inp.step.tt (scCheck C.dtSc st.tLast inp.step.tt).1 inp.force
      (due = true → st1.rho.rho = dens.sum ∧ st1.rho.cloudRho = dens ∧ st1.field C = C.pic.solve dens.sum) ∧
      (due = false → st1.rho = st.rho ∧ st1.field C = st.field C) := by
  obtain ⟨s1, s2, h1, h2, h3, h4, h5⟩ := cplStep_parts C inp st st1 h
  obtain ⟨mot, hm⟩ := cplTurns_motion C inp _ _ List.nodup_range _ _ h1
  have l1 := simRun_length C.S _ _ _ hm
  have l2 := simRun_length C.S _ _ _ h2
  have e1 : simRun C.S (StepIn.moveOps C.S st.sim.clouds.length { inp.step with motion := mot }) st.sim = .ok s2 := by
    unfold StepIn.moveOps
    rw [simRun_append]
    simp only [primaryOps_motion]
    rw [hm]
    exact h2
  refine ⟨mot, s2, e1, ?_, ?_⟩
  · rw [l2, l1] at h3; exact h3
  · have hn2 : s2.clouds ≠ [] := by
      intro e
      rw [e] at l2
      exact hn (List.length_eq_zero_iff.1 (by rw [← l1, ← l2]; rfl))
    refine ⟨fun hd => ?_, fun hd => ?_⟩
    · rw [cplRho_due C inp _ s2 st.rho hn2 hd] at h4
      refine ⟨by rw [h4]; rfl, by rw [h4]; rfl, ?_⟩
      unfold CplSt.field
      rw [h4]
      simp only [List.getLast?_append, List.getLast?_singleton, Option.some_or]
      rfl
    · have : st1.rho = st.rho := by
        rw [h4]
        unfold cplRho
        rw [if_neg (by rw [hd]; simp)]
      refine ⟨this, ?_⟩
      unfold CplSt.field
      rw [this]

/-- a grid as in `compute_rho.f` and any solver for it -/
def gridPic (nx ny : ℕ) (bx yb dh : K) (solve : (ℕ → ℕ → K) → K → K → K × K) : PicFun K (ℕ → ℕ → K) where
  scatter := fun q ps i j => q * computeRho nx ny bx yb dh ps i j
  solve := solve

theorem gridSum_list (nx ny : ℕ) (l : List (ℕ → ℕ → K)) : gridSum nx ny l.sum = (l.map (gridSum nx ny)).sum := by
  induction l with
  | nil => simp [gridSum]
  | cons a l ih =>
    rw [List.sum_cons, List.map_cons, List.sum_cons, ← ih]
    simp [gridSum, Finset.sum_add_distrib]

/-- **C145 (d).** With charges deposited on a grid: after a step in which the field is recomputed, the total of the density is the
charge of all macroparticles of all clouds on the grid. -/
theorem C145_grid_charge (C : CplCfg K (ℕ → ℕ → K)) (nx ny : ℕ) (bx yb dh : K) (hd : 0 < dh)
    (solve : (ℕ → ℕ → K) → K → K → K × K) (hp : C.pic = gridPic nx ny bx yb dh solve) (inp : CplIn K)
    (st st1 : CplSt K (ℕ → ℕ → K)) (hn : st.sim.clouds ≠ []) (h : cplStep C inp st = .ok st1)
    (hdue : scDo C.tScOn inp.step.tt (scCheck C.dtSc st.tLast inp.step.tt).1 inp.force = true) :
    ∃ (mot : ℕ → ℕ → Phase K → Phase K) (mid : SimSt K),
      simRun C.S (StepIn.moveOps C.S st.sim.clouds.length { inp.step with motion := mot }) st.sim = .ok mid ∧
      gridSum nx ny st1.rho.rho = (mid.clouds.mapIdx (fun i c =>
        C.charge i * ((inside nx ny bx yb dh c.mps.scatterArgs).map (fun p => p.2.2)).sum)).sum := by
  obtain ⟨mot, mid, h1, _, h3, _⟩ := C145_density C inp st st1 hn h
  refine ⟨mot, mid, h1, ?_⟩
  rw [(h3 hdue).1, gridSum_list, hp]
  congr 1
  apply List.ext_getElem
  · simp
  · intro i _ _
    simp only [List.getElem_map, List.getElem_mapIdx, gridPic]
    rw [← C21_rho_charge nx ny bx yb dh hd]
    simp [gridSum, Finset.mul_sum]

end PyECLOUD
