import Verif.Lemmas.MirrorSim
import Verif.Spec.MirrorFields
import Verif.Props.CloudOrder
import Verif.Model.Ellipse
import Verif.Model.Emission
import Mathlib.Analysis.SpecialFunctions.Complex.Arg

/-!
# Mirror images: C156
-/

set_option linter.unusedSectionVars false

namespace PyECLOUD

section general

variable {K : Type} [Field K] [LinearOrder K] [IsStrictOrderedRing K] [FloorRing K]

/-- **C156** (partial): started as the mirror image of a simulation, with mirrored chamber, beams, motion, emission and random
numbers, a simulation remains the mirror image of it: every macroparticle of every cloud is at the mirrored place with the mirrored
velocity and has the same size, and the numbers and energies of impacting and emitted electrons are the same. Missing: full
regenerations (whose cells are not symmetric) and cross ionisation. -/
theorem C156_mirror_partial (m : Mirror K) (S : SimCfg K) (steps : List (StepIn K)) (st st' st1 st1' : SimSt K) (h : m.Image st st')
    (hn : noRebuild S steps st) (h1 : simulate S steps st = .ok st1)
    (h2 : simulate (m.cfg S) (steps.map (m.step S)) st' = .ok st1') :
    st1'.clouds = st1.clouds.map (fun c => { c with mps := m.mps c.mps }) ∧ st1'.cnt = st1.cnt := by
  have := simulate_image m S steps st st' st1 st1' h hn h1 h2
  exact ⟨this.1, this.2.1⟩

/-! ## The simulation with its fields -/

theorem fields_fields (m : Mirror K) (f : Fields K) : m.fields (m.fields f) = f := by
  have c : ∀ {s : K}, s * s = 1 → ∀ a : List K, (a.map (s * ·)).map (s * ·) = a := by
    intro s hs a
    rw [List.map_map]
    conv_rhs => rw [← List.map_id a]
    apply List.map_congr_left
    intro v _
    exact mul_self_cancel hs v
  have d1 : m.det * m.det = 1 := by
    unfold Mirror.det
    linear_combination m.sy * m.sy * m.sz * m.sz * m.hx + m.sz * m.sz * m.hy + m.hz
  have hx : m.det * m.sx * (m.det * m.sx) = 1 := by linear_combination m.sx * m.sx * d1 + m.hx
  have hy : m.det * m.sy * (m.det * m.sy) = 1 := by linear_combination m.sy * m.sy * d1 + m.hy
  have hz : m.det * m.sz * (m.det * m.sz) = 1 := by linear_combination m.sz * m.sz * d1 + m.hz
  simp only [Mirror.fields, c m.hx, c m.hy, c hx, c hy, c hz]

theorem mps_mps (m : Mirror K) (s : MPs K) : m.mps (m.mps s) = s := by
  apply MPs.ext' <;> try rfl
  funext f
  rw [mir_arr, mir_arr, List.map_map]
  conv_rhs => rw [← List.map_id (s.arr f)]
  apply List.map_congr_left
  intro v _
  have : m.sgn f * m.sgn f = 1 := by
    cases f <;> first | exact m.hx | exact m.hy | exact m.hz | exact one_mul 1
  exact mul_self_cancel this v

theorem cloudFields_mir (m : Mirror K) (f : K → K → K × K) (s : MPs K) :
    cloudFields (m.field2 f) (m.mps s) = m.fields (cloudFields f s) := by
  simp only [cloudFields, Mirror.fields, mir_nmp, mir_getD, Mirror.sgn, Mirror.field2, Mirror.pnt, List.map_map, Function.comp_def,
    mul_self_cancel m.hx, mul_self_cancel m.hy, List.map_cons, List.map_nil, mul_zero]

theorem beamFields_mir (m : Mirror K) (f : K → K → K × K) (s : MPs K) :
    beamFields (m.field2 f) (m.mps s) = ((beamFields f s).1.map (m.sx * ·), (beamFields f s).2.map (m.sy * ·)) := by
  simp only [beamFields, mir_nmp, mir_getD, Mirror.sgn, Mirror.field2, Mirror.pnt, List.map_map, Function.comp_def,
    mul_self_cancel m.hx, mul_self_cancel m.hy]

theorem getD_map_mul (s : K) (a : List K) (i : ℕ) : (a.map (s * ·)).getD i 0 = s * a.getD i 0 := by
  rw [List.getD_eq_getElem?_getD, List.getD_eq_getElem?_getD, List.getElem?_map]
  cases a[i]? with
  | none => simp
  | some v => rfl

theorem addE_mir (m : Mirror K) (f : Fields K) (n : ℕ) (ex ey : List K) :
    (m.fields f).addE n (ex.map (m.sx * ·)) (ey.map (m.sy * ·)) = m.fields (f.addE n ex ey) := by
  simp only [Fields.addE, Mirror.fields, getD_map_mul, List.map_map, Function.comp_def, mul_add]

theorem kickMP_mir (m : Mirror K) (s : MPs K) (ex ey : List K) (d qm : K) :
    kickMP (m.mps s) (ex.map (m.sx * ·)) (ey.map (m.sy * ·)) d qm = m.mps (kickMP s ex ey d qm) := by
  refine push_mir m s _ _ (fun i _ => ?_)
  simp only [Mirror.phase, getD_map_mul, Phase.mk.injEq, true_and, and_true]
  constructor <;> ring

theorem motionOne_mir (m : Mirror K) (t : TrackerObj K) (nint : ℕ) (d : Option K) (s : MPs K) (f : Fields K) :
    motionOne (m.tracker t) nint d (m.mps s) (m.fields f) = (motionOne t nint d s f).map m.mps := by
  cases d <;> simp only [motionOne, Mirror.tracker, mps_mps, fields_fields]

theorem motionLoop_mir (m : Mirror K) (t : TrackerObj K) (f : K → K → K × K) (b : Option (K → K → K × K)) (nint : ℕ) (d : Option K)
    (k : ℕ) (s : MPs K) :
    motionLoop (m.tracker t) (cloudFields (m.field2 f)) (b.map (fun b => beamFields (m.field2 b))) nint d k (m.mps s) =
      (motionLoop t (cloudFields f) (b.map beamFields) nint d k s).map m.mps := by
  induction k generalizing s with
  | zero => rfl
  | succ k ih =>
    have hf : motionFields (cloudFields (m.field2 f)) (b.map (fun b => beamFields (m.field2 b))) (m.mps s) =
        m.fields (motionFields (cloudFields f) (b.map beamFields) s) := by
      cases b with
      | none => exact cloudFields_mir m f s
      | some b =>
        simp only [motionFields, Option.map_some, cloudFields_mir, beamFields_mir, mir_nmp, addE_mir]
    simp only [motionLoop]
    rw [hf, motionOne_mir]
    cases motionOne t nint d s (motionFields (cloudFields f) (b.map beamFields) s) with
    | error e => rfl
    | ok s' => exact ih s'

theorem cloudMotion_mir (m : Mirror K) (t : TrackerObj K) (isB un : Bool) (custom : Option (ℕ × K)) (kick re : Bool) (qm dt : K)
    (f b : K → K → K × K) (s : MPs K) :
    cloudMotion isB un custom kick re (m.tracker t) qm dt (cloudFields (m.field2 f)) (beamFields (m.field2 b)) (m.mps s) =
      (cloudMotion isB un custom kick re t qm dt (cloudFields f) (beamFields b) s).map m.mps := by
  unfold cloudMotion
  rw [show substepMode isB un custom (m.tracker t) dt = substepMode isB un custom t dt from rfl]
  cases substepMode isB un custom t dt with
  | error e => rfl
  | ok mode =>
    dsimp only
    cases kick with
    | false =>
      dsimp only
      cases substepPlan re mode with
      | error e => rfl
      | ok p => exact motionLoop_mir m t f (some b) _ _ _ s
    | true =>
      cases custom with
      | none => rfl
      | some q =>
        dsimp only
        rw [beamFields_mir, kickMP_mir]
        cases substepPlan re mode with
        | error e => rfl
        | ok p => exact motionLoop_mir m t f none _ _ _ _

/-! ### the coupled steps -/

variable {G : Type} [AddCommGroup G]

theorem scatterArgs_mir (m : Mirror K) (s : MPs K) :
    (m.mps s).scatterArgs = s.scatterArgs.map (fun a => (m.sx * a.1, m.sy * a.2.1, a.2.2)) := by
  simp only [MPs.scatterArgs, mir_nmp, mir_getD, Mirror.sgn, List.map_map, Function.comp_def, one_mul]

theorem field_image (m : Mirror K) (σ : G →+ G) (C : CplCfg K G) (p' : PicFun K G) (hp : m.PicImage σ C.pic p') (st st' : CplSt K G)
    (h : m.CplImage σ st st') : st'.field (m.cplCfg p' C) = m.field2 (st.field C) := by
  unfold CplSt.field
  rw [h.2.1]
  dsimp only
  rw [List.getLast?_map]
  cases st.rho.solved.getLast? with
  | none =>
    funext x y
    simp [Mirror.field2, Mirror.pnt]
  | some g => exact hp.solve g

theorem noRebuildOps_of (S : SimCfg K) (ops : List (SimOp K)) (st : SimSt K) (h : ∀ op ∈ ops, ∀ st, op.noRebuild S st) :
    noRebuildOps S ops st := by
  induction ops generalizing st with
  | nil => trivial
  | cons op ops ih => exact ⟨h op (by simp) st, fun st' _ => ih st' (fun o ho => h o (by simp [ho]))⟩

theorem primaryOps_noRebuild (S : SimCfg K) (inp : StepIn K) (i : ℕ) : ∀ op ∈ inp.primaryOps S i, ∀ st, op.noRebuild S st := by
  intro op ho st
  unfold StepIn.primaryOps at ho
  rw [List.mem_append] at ho
  rcases ho with ho | ho
  · split at ho
    · rw [List.mem_mapIdx] at ho
      obtain ⟨k, hk, rfl⟩ := ho
      trivial
    · simp at ho
  · dsimp only at ho
    split at ho
    · simp at ho
    · rw [List.mem_singleton] at ho
      subst ho
      trivial
    · rw [List.mem_singleton] at ho
      subst ho
      trivial

theorem cplTurn_image (m : Mirror K) (p' : PicFun K G) (C : CplCfg K G) (inp : CplIn K) (f : K → K → K × K) (i : ℕ)
    (st st' st1 st1' : SimSt K) (h : m.Image st st') (h1 : cplTurn C inp f i st = .ok st1)
    (h2 : cplTurn (m.cplCfg p' C) (m.cplIn C.S inp) (m.field2 f) i st' = .ok st1') : m.Image st1 st1' := by
  unfold cplTurn at h1 h2
  rw [image_get m st st' h] at h2
  cases hc : st.clouds[i]? with
  | none => rw [hc] at h1; cases h1
  | some cl =>
    rw [hc] at h1 h2
    simp only [Option.map_some] at h1 h2
    have hm : cplMotion (m.cplCfg p' C) (m.cplIn C.S inp) (m.field2 f) i (m.mps cl.mps) = (cplMotion C inp f i cl.mps).map m.mps :=
      cloudMotion_mir m (C.tr i) _ _ _ _ _ _ _ f inp.beam cl.mps
    rw [hm] at h2
    cases hq : cplMotion C inp f i cl.mps with
    | error e => rw [hq] at h1; cases h1
    | ok s =>
      rw [hq] at h1 h2
      simp only [Except.map] at h1 h2
      have hops : SimOp.track i (fun k _ => (m.mps s).phase k) ((m.cplIn C.S inp).step.sey i) (m.cplIn C.S inp).step.tt ::
          (m.cplIn C.S inp).step.primaryOps (m.cplCfg p' C).S i =
          (SimOp.track i (fun k _ => s.phase k) (inp.step.sey i) inp.step.tt :: inp.step.primaryOps C.S i).map (m.op C.S) := by
        rw [List.map_cons]
        congr 1
        · simp only [Mirror.op, phase_mir]
          rfl
        · exact primaryOps_image m C.S inp.step i
      rw [hops] at h2
      refine simRun_image m C.S _ st st' st1 st1' h (noRebuildOps_of _ _ _ ?_) h1 h2
      intro op ho
      rcases List.mem_cons.mp ho with rfl | ho
      · exact fun _ => trivial
      · exact primaryOps_noRebuild _ _ _ op ho

theorem cplTurns_image (m : Mirror K) (p' : PicFun K G) (C : CplCfg K G) (inp : CplIn K) (f : K → K → K × K) (l : List ℕ)
    (st st' st1 st1' : SimSt K) (h : m.Image st st') (h1 : cplTurns C inp f l st = .ok st1)
    (h2 : cplTurns (m.cplCfg p' C) (m.cplIn C.S inp) (m.field2 f) l st' = .ok st1') : m.Image st1 st1' := by
  induction l generalizing st st' with
  | nil =>
    cases h1
    cases h2
    exact h
  | cons i l ih =>
    simp only [cplTurns] at h1 h2
    split at h1
    · cases h1
    · rename_i a ha
      split at h2
      · cases h2
      · rename_i b hb
        exact ih a b (cplTurn_image m p' C inp f i st st' a b h ha hb) h1 h2

theorem cplDeps_mir (m : Mirror K) (σ : G →+ G) (C : CplCfg K G) (p' : PicFun K G) (hp : m.PicImage σ C.pic p') (st st' : SimSt K)
    (h : m.Image st st') : cplDeps (m.cplCfg p' C) st' = (cplDeps C st).map σ := by
  unfold cplDeps
  rw [h.1]
  refine mapIdx_mir' _ _ _ _ (fun k c => ?_) _
  dsimp only
  rw [scatterArgs_mir]
  exact hp.scatter _ _

theorem rhoRound_map (σ : G →+ G) (n : ℕ) (l : List G) (i : ℕ) (s : RhoSt G) :
    rhoRound n i (l.map σ) ⟨σ s.rho, s.cloudRho.map σ, s.solved.map σ⟩ =
      ⟨σ (rhoRound n i l s).rho, (rhoRound n i l s).cloudRho.map σ, (rhoRound n i l s).solved.map σ⟩ := by
  induction l generalizing i s with
  | nil => rfl
  | cons d l ih =>
    simp only [List.map_cons, rhoRound]
    rw [← ih]
    congr 1
    simp only [rhoCloudStep, RhoSt.mk.injEq]
    have e : cond (decide (i = 0)) (σ d) (σ s.rho + σ d) = σ (cond (decide (i = 0)) d (s.rho + d)) := by
      cases decide (i = 0)
      · exact (map_add σ _ _).symm
      · rfl
    have t : ((s.cloudRho.map σ).take i).sum = σ (s.cloudRho.take i).sum := by
      rw [← List.map_take, map_list_sum]
    refine ⟨e, ?_, ?_⟩
    · rw [e, t, List.map_append, List.map_cons, List.map_nil, map_sub]
    · rw [e]
      cases decide (i + 1 = n)
      · rfl
      · simp

theorem cplStep_image (m : Mirror K) (σ : G →+ G) (C : CplCfg K G) (p' : PicFun K G) (hp : m.PicImage σ C.pic p') (inp : CplIn K)
    (st st' st1 st1' : CplSt K G) (h : m.CplImage σ st st')
    (hn : ∀ s1 s2, cplTurns C inp (st.field C) (List.range st.sim.clouds.length) st.sim = .ok s1 →
      simRun C.S [.cross inp.step.dt inp.step.xD] s1 = .ok s2 → noRebuildOps C.S (inp.step.maintOps s2.clouds.length) s2)
    (h1 : cplStep C inp st = .ok st1) (h2 : cplStep (m.cplCfg p' C) (m.cplIn C.S inp) st' = .ok st1') : m.CplImage σ st1 st1' := by
  unfold cplStep at h1 h2
  dsimp only at h1 h2
  rw [field_image m σ C p' hp st st' h, image_length m _ _ h.1] at h2
  cases ha : cplTurns C inp (st.field C) (List.range st.sim.clouds.length) st.sim with
  | error e => rw [ha] at h1; cases h1
  | ok s1 =>
    cases ha' : cplTurns (m.cplCfg p' C) (m.cplIn C.S inp) (m.field2 (st.field C)) (List.range st.sim.clouds.length) st'.sim with
    | error e => rw [ha'] at h2; cases h2
    | ok s1' =>
      rw [ha] at h1
      rw [ha'] at h2
      dsimp only at h1 h2
      have i1 := cplTurns_image m p' C inp _ _ _ _ _ _ h.1 ha ha'
      cases hb : simRun C.S [.cross inp.step.dt inp.step.xD] s1 with
      | error e => rw [hb] at h1; cases h1
      | ok s2 =>
        cases hb' : simRun (m.cplCfg p' C).S [.cross (m.cplIn C.S inp).step.dt (m.cplIn C.S inp).step.xD] s1' with
        | error e => rw [hb'] at h2; cases h2
        | ok s2' =>
          rw [hb] at h1
          rw [hb'] at h2
          dsimp only at h1 h2
          have i2 : m.Image s2 s2' :=
            simRun_image m C.S _ s1 s1' s2 s2' i1 (noRebuildOps_of _ _ _ (by simp [SimOp.noRebuild])) hb hb'
          rw [image_length m _ _ i2] at h2
          cases hc : simRun C.S (inp.step.maintOps s2.clouds.length) s2 with
          | error e => rw [hc] at h1; cases h1
          | ok s3 =>
            cases hc' : simRun (m.cplCfg p' C).S ((m.cplIn C.S inp).step.maintOps s2.clouds.length) s2' with
            | error e => rw [hc'] at h2; cases h2
            | ok s3' =>
              rw [hc] at h1
              rw [hc'] at h2
              cases h1
              cases h2
              have hmo : (m.cplIn C.S inp).step.maintOps s2.clouds.length = (inp.step.maintOps s2.clouds.length).map (m.op C.S) := by
                simp only [StepIn.maintOps, List.map_map]
                rfl
              rw [hmo] at hc'
              refine ⟨simRun_image m C.S _ s2 s2' s3 s3' i2 (hn s1 s2 ha hb) hc hc', ?_, ?_⟩
              · show cplRho (m.cplCfg p' C) (m.cplIn C.S inp) (scCheck C.dtSc st'.tLast inp.step.tt).1 s2' st'.rho = _
                rw [h.2.2, h.2.1]
                unfold cplRho
                show (if scDo C.tScOn inp.step.tt _ inp.force = true then _ else _) = _
                split
                · rw [image_length m _ _ i2, cplDeps_mir m σ C p' hp s2 s2' i2]
                  exact rhoRound_map σ _ _ _ ⟨st.rho.rho, [], st.rho.solved⟩
                · rfl
              · show (scCheck C.dtSc st'.tLast inp.step.tt).2 = _
                rw [h.2.2]

/-- **C156** (partial): the same with the fields: when the solver, the trackers and the fields of the beams are mirrored too, the clouds,
the densities and the field of the clouds remain the mirror images. -/
theorem C156_fields_partial (m : Mirror K) (σ : G →+ G) (C : CplCfg K G) (p' : PicFun K G) (hp : m.PicImage σ C.pic p')
    (inps : List (CplIn K)) (st st' st1 st1' : CplSt K G) (h : m.CplImage σ st st') (hn : cplNoRebuild C inps st)
    (h1 : cplRun C inps st = .ok st1) (h2 : cplRun (m.cplCfg p' C) (inps.map (m.cplIn C.S)) st' = .ok st1') :
    m.CplImage σ st1 st1' ∧ ∀ x y, st1'.field (m.cplCfg p' C) (m.sx * x) (m.sy * y) = m.pnt (st1.field C x y) := by
  have key : m.CplImage σ st1 st1' := by
    induction inps generalizing st st' with
    | nil =>
      cases h1
      cases h2
      exact h
    | cons inp l ih =>
      simp only [List.map_cons, cplRun] at h1 h2
      split at h1
      · cases h1
      · rename_i a ha
        split at h2
        · cases h2
        · rename_i b hb
          exact ih a b (cplStep_image m σ C p' hp inp st st' a b h hn.1 ha hb) (hn.2 a ha) h1 h2
  refine ⟨key, fun x y => ?_⟩
  rw [field_image m σ C p' hp st1 st1' key]
  simp only [Mirror.field2, mul_self_cancel m.hx, mul_self_cancel m.hy]

theorem pic_image (m : Mirror K) (p : PicFun K G) : m.PicImage (AddMonoidHom.id G) p (m.pic p) where
  scatter := by
    intro q l
    simp only [Mirror.pic, List.map_map, Function.comp_def, mul_self_cancel m.hx, mul_self_cancel m.hy, AddMonoidHom.id_apply]
    congr 1
    exact List.map_id _
  solve := fun _ => rfl

/-! ## Densities and fields on a symmetric grid -/

theorem sign_cases {s : K} (h : s * s = 1) : s = 1 ∨ s = -1 := mul_self_eq_one_iff.mp h

theorem inAxis_mir {s : K} (hs : s * s = 1) (n : ℕ) (bias d x : K) (hb : bias = -(((n : K) - 1) / 2 * d)) (hi : InAxis n bias d x)
    (hne : x ≠ bias) : InAxis n bias d (s * x) := by
  have h1 : bias < x := lt_of_le_of_ne hi.1 (Ne.symm hne)
  have h2 := hi.2
  have e : bias + ((n : K) - 1) * d = -bias := by rw [hb]; ring
  rw [e] at h2
  unfold InAxis
  rw [e]
  rcases sign_cases hs with rfl | rfl
  · exact ⟨by linarith, by linarith⟩
  · exact ⟨by linarith, by linarith⟩

theorem hat_mir {s : K} (hs : s * s = 1) (n : ℕ) (bias d x : K) (hb : bias = -(((n : K) - 1) / 2 * d)) (i : ℕ) (h1 : 1 ≤ i)
    (hn : i ≤ n) : hat bias d (Mirror.node s n i) (s * x) = hat bias d i x := by
  unfold Mirror.node hat
  rcases sign_cases hs with rfl | rfl
  · rw [if_pos rfl, one_mul]
  · rw [if_neg (by intro h; linarith [(by norm_num : (0 : K) < 1)])]
    have e : -1 * x - nodePos bias d (n + 1 - i) = -(x - nodePos bias d i) := by
      unfold nodePos
      rw [Nat.cast_sub (by omega), hb]
      push_cast
      ring
    rw [e, abs_neg]

/-- **C156**: on a grid that is symmetric about the origin, the density of mirrored macroparticles is the mirrored density. The
macroparticles are inside the grid. -/
theorem C156_density (m : Mirror K) (nx ny : ℕ) (bx yb dh : K) (hd : 0 < dh) (hbx : bx = -(((nx : K) - 1) / 2 * dh))
    (hby : yb = -(((ny : K) - 1) / 2 * dh)) (ps : List (K × K × K))
    (hin : ∀ p ∈ ps, InAxis nx bx dh p.1 ∧ p.1 ≠ bx ∧ InAxis ny yb dh p.2.1 ∧ p.2.1 ≠ yb) (i j : ℕ) (hi : 1 ≤ i) (hi' : i ≤ nx)
    (hj : 1 ≤ j) (hj' : j ≤ ny) :
    computeRho nx ny bx yb dh (ps.map (fun p => (m.sx * p.1, m.sy * p.2.1, p.2.2))) (Mirror.node m.sx nx i) (Mirror.node m.sy ny j) =
      computeRho nx ny bx yb dh ps i j := by
  unfold computeRho
  have key : ∀ rho rho' : ℕ → ℕ → K, rho' (Mirror.node m.sx nx i) (Mirror.node m.sy ny j) = rho i j →
      (ps.map (fun p => (m.sx * p.1, m.sy * p.2.1, p.2.2))).foldl (fun rho p => rhoStep nx ny bx yb dh rho p.1 p.2.1 p.2.2) rho'
        (Mirror.node m.sx nx i) (Mirror.node m.sy ny j) =
      ps.foldl (fun rho p => rhoStep nx ny bx yb dh rho p.1 p.2.1 p.2.2) rho i j := by
    induction ps with
    | nil => exact fun _ _ h => h
    | cons p ps ih =>
      intro rho rho' h
      simp only [List.map_cons, List.foldl_cons]
      refine ih (fun q hq => hin q (by simp [hq])) _ _ ?_
      obtain ⟨a1, a2, a3, a4⟩ := hin p (by simp)
      rw [rhoStep_pointwise nx ny bx yb dh hd, rhoStep_pointwise nx ny bx yb dh hd,
        if_pos ⟨inAxis_mir m.hx nx bx dh p.1 hbx a1 a2, inAxis_mir m.hy ny yb dh p.2.1 hby a3 a4⟩, if_pos ⟨a1, a3⟩, h,
        hat_mir m.hx nx bx dh p.1 hbx i hi hi', hat_mir m.hy ny yb dh p.2.1 hby j hj hj']
  exact key _ _ rfl

theorem intField_hats (nx ny : ℕ) (bx yb dh : K) (hd : 0 < dh) (F : ℕ → ℕ → K) (x y : K) (hx : InAxis nx bx dh x)
    (hy : InAxis ny yb dh y) :
    intField nx ny bx yb dh dh F x y = gridSum nx ny (fun i j => hat bx dh i x * hat yb dh j y * F i j) := by
  have h := gridSum_computeRho nx ny bx yb dh F [(x, y, 1)]
  simp only [List.map_cons, List.map_nil, List.sum_cons, List.sum_nil, add_zero, one_mul] at h
  rw [← h]
  unfold gridSum
  refine Finset.sum_congr rfl (fun i _ => Finset.sum_congr rfl (fun j _ => ?_))
  simp only [computeRho, List.foldl_cons, List.foldl_nil]
  rw [rhoStep_pointwise nx ny bx yb dh hd, if_pos ⟨hx, hy⟩]
  ring

theorem node_mem {s : K} (n i : ℕ) (h : i ∈ Finset.Icc 1 n) : Mirror.node s n i ∈ Finset.Icc 1 n := by
  rw [Finset.mem_Icc] at h ⊢
  unfold Mirror.node
  split <;> omega

theorem node_node {s : K} (n i : ℕ) (h : i ∈ Finset.Icc 1 n) : Mirror.node s n (Mirror.node s n i) = i := by
  rw [Finset.mem_Icc] at h
  unfold Mirror.node
  split
  · rfl
  · omega

theorem sum_node {s : K} (n : ℕ) (f : ℕ → K) : ∑ i ∈ Finset.Icc 1 n, f (Mirror.node s n i) = ∑ i ∈ Finset.Icc 1 n, f i :=
  Finset.sum_nbij' (fun i => Mirror.node s n i) (fun i => Mirror.node s n i) (fun i hi => node_mem n i hi) (fun i hi => node_mem n i hi)
    (fun i hi => node_node n i hi) (fun i hi => node_node n i hi) (fun _ _ => rfl)

/-- **C156**: a field on such a grid that is the mirrored field at the mirrored nodes, interpolated at a mirrored point, is the mirrored
field there. `t` is the sign of the component. -/
theorem C156_gather (m : Mirror K) (nx ny : ℕ) (bx yb dh : K) (hd : 0 < dh) (hbx : bx = -(((nx : K) - 1) / 2 * dh))
    (hby : yb = -(((ny : K) - 1) / 2 * dh)) (t : K) (F F' : ℕ → ℕ → K)
    (hF : ∀ i j, 1 ≤ i → i ≤ nx → 1 ≤ j → j ≤ ny → F' (Mirror.node m.sx nx i) (Mirror.node m.sy ny j) = t * F i j) (x y : K)
    (hx : InAxis nx bx dh x) (hx' : x ≠ bx) (hy : InAxis ny yb dh y) (hy' : y ≠ yb) :
    intField nx ny bx yb dh dh F' (m.sx * x) (m.sy * y) = t * intField nx ny bx yb dh dh F x y := by
  rw [intField_hats nx ny bx yb dh hd F x y hx hy, intField_hats nx ny bx yb dh hd F' _ _ (inAxis_mir m.hx nx bx dh x hbx hx hx')
    (inAxis_mir m.hy ny yb dh y hby hy hy')]
  unfold gridSum
  rw [← sum_node (s := m.sx) nx, Finset.mul_sum]
  refine Finset.sum_congr rfl (fun i hi => ?_)
  rw [← sum_node (s := m.sy) ny, Finset.mul_sum]
  refine Finset.sum_congr rfl (fun j hj => ?_)
  rw [Finset.mem_Icc] at hi hj
  dsimp only
  rw [hF i j hi.1 hi.2 hj.1 hj.2, hat_mir m.hx nx bx dh x hbx i hi.1 hi.2, hat_mir m.hy ny yb dh y hby j hj.1 hj.2]
  ring

/-! ## The trackers -/

/-- **C156**: the Boris tracker in mirrored fields gives the mirrored motion; the magnetic field is mirrored as an axial vector. -/
theorem C156_boris (m : Mirror K) (qm d : K) (e : V3 K) (getB : K → K → V3 K) (n : ℕ) (p : Phase K) :
    borisSub qm d (m.eVec e) (fun x y => m.bVec (getB (m.sx * x) (m.sy * y))) n (m.phase p) = m.phase (borisSub qm d e getB n p) := by
  induction n generalizing p with
  | zero => rfl
  | succ n ih =>
    rw [borisSub, borisSub, ← ih]
    congr 1
    simp only [Mirror.phase, mul_self_cancel m.hx, mul_self_cancel m.hy]
    generalize getB p.x p.y = b
    simp only [borisKick, Mirror.eVec, Mirror.bVec, Mirror.det]
    rcases sign_cases m.hx with hx | hx <;> rcases sign_cases m.hy with hy | hy <;> rcases sign_cases m.hz with hz | hz <;>
      simp only [hx, hy, hz, Phase.mk.injEq] <;> refine ⟨?_, ?_, ?_, ?_, ?_, ?_⟩ <;> ring

/-- The magnetic field of a tracker is its own mirror image. -/
def BSrc.Symm (m : Mirror K) (src : BSrc K) (b0 : V3 K) : Prop :=
  ∀ x y, m.bVec (src.getB b0 (m.sx * x) (m.sy * y)) = src.getB b0 x y

/-- **C156**: a Boris tracker with a symmetric magnetic field is its own mirror image. -/
theorem C156_boris_tracker (m : Mirror K) (src : BSrc K) (b0 : V3 K) (qm dt : K) (n : ℕ) (h : src.Symm m b0) :
    m.tracker (borisObj src b0 qm dt n) = borisObj src b0 qm dt n := by
  have key : ∀ (d : K) (k : ℕ) (s : MPs K) (f : Fields K),
      m.mps ((m.mps s).push (fun i => borisSub qm d (EArr.at ⟨(m.fields f).ex, (m.fields f).ey, []⟩ i) (src.getB b0) k)) =
        s.push (fun i => borisSub qm d (EArr.at ⟨f.ex, f.ey, []⟩ i) (src.getB b0) k) := by
    intro d k s f
    rw [push_mir m s (fun i => borisSub qm d (EArr.at ⟨f.ex, f.ey, []⟩ i) (src.getB b0) k) _ ?_, mps_mps]
    intro i _
    rw [← C156_boris]
    congr 1
    · simp only [EArr.at, Mirror.fields, Mirror.eVec, getD_map_mul, List.getD_nil, mul_zero]
    · funext x y
      exact (h x y).symm
  unfold Mirror.tracker borisObj
  simp only [TrackerObj.mk.injEq, true_and]
  constructor
  · funext s f
    exact congrArg Except.ok (key _ _ s f)
  · funext s f d k
    exact congrArg Except.ok (key _ _ s f)

/-- **C156**: without magnetic field every mirror is a symmetry; a quadrupole is symmetric left to right and top to bottom; a vertical
dipole field is symmetric top to bottom, and left to right when the direction of the beam is mirrored too. -/
theorem C156_magnets (g b : K) :
    (∀ m : Mirror K, (BSrc.none : BSrc K).Symm m ⟨0, 0, 0⟩) ∧ (BSrc.quad g).Symm mirrorX ⟨0, 0, 0⟩ ∧
    (BSrc.quad g).Symm mirrorY ⟨0, 0, 0⟩ ∧ (BSrc.none : BSrc K).Symm mirrorY ⟨0, b, 0⟩ ∧
    (BSrc.none : BSrc K).Symm ⟨-1, 1, -1, by ring, by ring, by ring⟩ ⟨0, b, 0⟩ ∧
    (b ≠ 0 → ¬ (BSrc.none : BSrc K).Symm mirrorX ⟨0, b, 0⟩) := by
  refine ⟨fun m x y => ?_, fun x y => ?_, fun x y => ?_, fun x y => ?_, fun x y => ?_, fun hb h => ?_⟩
  · simp [BSrc.getB, Mirror.bVec]
  · simp [BSrc.getB, Mirror.bVec, Mirror.det, mirrorX]
  · simp [BSrc.getB, Mirror.bVec, Mirror.det, mirrorY]
  · simp [BSrc.getB, Mirror.bVec, Mirror.det, mirrorY]
  · simp [BSrc.getB, Mirror.bVec, Mirror.det]
  · have := congrArg V3.y (h 0 0)
    simp [BSrc.getB, Mirror.bVec, Mirror.det, mirrorX] at this
    exact hb (by linarith)

/-! ## The emission -/

/-- The generator of emission velocities in the mirror image. -/
def Mirror.ang (m : Mirror K) (ang : ℕ → K → K → K → K × K × K) : ℕ → K → K → K → K × K × K :=
  fun k en nx ny => m.vec (ang k en (m.sx * nx) (m.sy * ny))

theorem baseReplace_mir (m : Mirror K) (th : K) (i : Impact K) (nel : K) (el : Bool) :
    baseReplace th (m.impact i) nel el = m.emit (baseReplace th i nel el) := by
  unfold baseReplace
  cases el
  · rfl
  · simp only [Emit.ofImpact, Mirror.impact, Mirror.emit, specular, if_true, Emit.mk.injEq, true_and, and_true]
    constructor <;> ring

theorem seyECLOUD_mir (m : Mirror K) (hill1 hill2 : List K → Except PyErr (List K)) (ang1 ang2 : ℕ → K → K → K → K × K × K)
    (th : K) (evs : List (Impact K × K × Bool)) :
    seyECLOUD hill1 hill2 (m.ang ang1) (m.ang ang2) th (evs.map (fun e => (m.impact e.1, e.2))) =
      (seyECLOUD hill1 hill2 ang1 ang2 th evs).map m.seyOut := by
  unfold seyECLOUD
  simp only [List.map_map, Function.comp_def, baseReplace_mir]
  have e1 : evs.map (fun e => m.emit (baseReplace th e.1 e.2.1 e.2.2)) =
      (evs.map (fun e => baseReplace th e.1 e.2.1 e.2.2)).map m.emit := by rw [List.map_map]; rfl
  have e2 : evs.map (fun e => m.impact e.1) = (evs.map (fun e => e.1)).map m.impact := by rw [List.map_map]; rfl
  have e3 : evs.map (fun e => (m.impact e.1).en) = evs.map (fun e => e.1.en) := rfl
  have e5 : evs.map (fun e => (m.emit (baseReplace th e.1 e.2.1 e.2.2)).nel) =
      evs.map (fun e => (baseReplace th e.1 e.2.1 e.2.2).nel) := rfl
  rw [e1, e2, e3, e5]
  have set : ∀ (a : List (Emit K)) (v : List (K × K × K)), (((a.map m.emit).zip (v.map m.vec)).map (fun q => q.1.setV q.2)) =
      ((a.zip v).map (fun q => q.1.setV q.2)).map m.emit := by
    intro a v
    rw [List.zip_map, List.map_map, List.map_map]
    rfl
  have vel : ∀ (ang : ℕ → K → K → K → K × K × K) (a : List (Impact K)) (en : List K),
      ((a.map m.impact).zip en).mapIdx (fun k q => m.ang ang k q.2 q.1.nx q.1.ny) =
        ((a.zip en).mapIdx (fun k q => ang k q.2 q.1.nx q.1.ny)).map m.vec := by
    intro ang a en
    apply List.ext_getElem
    · simp
    · intro k h1 h2
      simp [Mirror.ang, Mirror.impact, mul_self_cancel m.hx, mul_self_cancel m.hy]
  split
  · rfl
  · cases hill1 (maskSel (evs.map (fun e => e.1.en)) (evs.map (fun e => !e.2.2))) with
    | error e => rfl
    | ok en1 =>
      dsimp only
      rw [← maskSel_map m.impact, ← maskSel_map m.emit, vel, set, ← maskPut_map]
      split
      · rfl
      · rw [← npRepeat_map m.impact]
        generalize npRepeat (evs.map (fun e => e.1)) (evs.map (fun e => nAdd th e.2.1 e.2.2)) = par
        generalize npRepeat (evs.map (fun e => (baseReplace th e.1 e.2.1 e.2.2).nel)) (evs.map (fun e => nAdd th e.2.1 e.2.2)) = ns
        rw [show (par.map m.impact).map (fun i => i.en) = par.map (fun i => i.en) by rw [List.map_map]; rfl]
        cases hill2 (par.map (fun i => i.en)) with
        | error e => rfl
        | ok en2 =>
          dsimp only
          rw [vel, show ((par.map m.impact).zip ns).map (fun q => Emit.ofImpact q.1 q.2) =
              ((par.zip ns).map (fun q => Emit.ofImpact q.1 q.2)).map m.emit by
                rw [List.zip_map_left, List.map_map, List.map_map]; rfl, set]
          rfl

/-- **C156**: the ECLOUD emission with mirrored emission velocities is the mirrored emission, when the yield of an impact is that of its
mirror image (it depends on energy, angle and charge). -/
theorem C156_ecloud (m : Mirror K) (proc : ℕ → Impact K → K × Bool) (hill1 hill2 : List K → Except PyErr (List K))
    (ang1 ang2 : ℕ → K → K → K → K × K × K) (hp : ∀ k i, proc k (m.impact i) = proc k i) :
    m.sey (seyEcloudModel proc hill1 hill2 ang1 ang2) = seyEcloudModel proc hill1 hill2 (m.ang ang1) (m.ang ang2) := by
  funext th imps
  unfold Mirror.sey seyEcloudModel
  rw [← seyECLOUD_mir]
  congr 1
  apply List.ext_getElem
  · simp
  · intro k h1 h2
    simp [hp, mir_impact_impact]

end general

/-! ## Emission angles, analytic trackers and the elliptical chamber, over the real numbers -/

/-- **C156**: the velocity of an electron emitted under the mirrored normal, with the mirrored number for the azimuth, is the mirrored
velocity; for every mirror that keeps the direction of the beam. -/
theorem C156_angles (m : Mirror ℝ) (hz : m.sz = 1) (d : AngleDist) (c en nx ny u0 u1 : ℝ) :
    d.vel c en (m.sx * nx) (m.sy * ny) u0 (Mirror.draw (m.sx * m.sy) true u1) = m.vec (d.vel c en nx ny u0 u1) := by
  have key : ∀ st, velAngle c en (m.sx * nx) (m.sy * ny) st (Mirror.draw (m.sx * m.sy) true u1) = m.vec (velAngle c en nx ny st u1) := by
    intro st
    have hs : Real.sin ((1 / 2 + -1 * (u1 - 1 / 2)) * 2 * Real.pi) = -Real.sin (u1 * 2 * Real.pi) := by
      rw [show (1 / 2 + -1 * (u1 - 1 / 2)) * 2 * Real.pi = 2 * Real.pi - u1 * 2 * Real.pi by ring, Real.sin_two_pi_sub]
    have hc : Real.cos ((1 / 2 + -1 * (u1 - 1 / 2)) * 2 * Real.pi) = Real.cos (u1 * 2 * Real.pi) := by
      rw [show (1 / 2 + -1 * (u1 - 1 / 2)) * 2 * Real.pi = 2 * Real.pi - u1 * 2 * Real.pi by ring, Real.cos_two_pi_sub]
    have hp : (1 / 2 : ℝ) + 1 * (u1 - 1 / 2) = u1 := by ring
    unfold velAngle Mirror.draw Mirror.vec
    rcases sign_cases m.hx with hx | hx <;> rcases sign_cases m.hy with hy | hy <;>
      simp only [hx, hy, hz, one_mul, mul_one, mul_neg, neg_mul, neg_neg, if_true] <;>
      simp only [neg_mul, one_mul] at hs hc hp ⊢ <;> simp only [hs, hc, hp] <;>
      refine Prod.ext ?_ (Prod.ext ?_ ?_) <;> simp only [] <;> ring
  cases d with
  | cosine3D => exact key _
  | cosine2D => exact key _
  | normal =>
    simp only [AngleDist.vel, velNormal, Mirror.vec, mul_zero, Prod.mk.injEq, and_true]
    constructor <;> ring

theorem sincc_neg (x : ℝ) : sincc (-x) = sincc x := by
  unfold sincc
  rw [abs_neg, Real.sin_neg, neg_div_neg_eq]

theorem cosincc_neg (x : ℝ) : cosincc (-x) = cosincc x := by
  unfold cosincc
  rw [abs_neg, Real.cos_neg, neg_mul_neg]

theorem cubsincc_neg (x : ℝ) : cubsincc (-x) = cubsincc x := by
  unfold cubsincc
  rw [abs_neg, Real.sin_neg, show -x - -Real.sin x = -(x - Real.sin x) by ring, show -x * -x * -x = -(x * x * x) by ring, neg_div_neg_eq]

/-- **C156**: the dipole tracker in the mirrored fields gives the mirrored motion. -/
theorem C156_dipole (m : Mirror ℝ) (qm b dt : ℝ) (e : V3 ℝ) (p : Phase ℝ) :
    dipoleMove qm (m.bVec ⟨0, b, 0⟩).y dt (m.eVec e) (m.phase p) = m.phase (dipoleMove qm b dt e p) := by
  have n1 : ∀ t : ℝ, Real.sin (-t) = -Real.sin t := Real.sin_neg
  have n2 : ∀ t : ℝ, Real.cos (-t) = Real.cos t := Real.cos_neg
  simp only [Mirror.phase, dipoleMove, Mirror.eVec, Mirror.bVec, Mirror.det]
  rcases sign_cases m.hx with hx | hx <;> rcases sign_cases m.hy with hy | hy <;> rcases sign_cases m.hz with hz | hz <;>
    simp only [hx, hy, hz, Phase.mk.injEq, one_mul, mul_one, mul_neg, neg_mul, neg_neg, n1, n2, sincc_neg, cosincc_neg, cubsincc_neg] <;>
    refine ⟨?_, ?_, ?_, ?_, ?_, ?_⟩ <;> first | trivial | ring

/-- **C156**: the tracker for strong fields in the mirrored fields gives the mirrored motion. -/
theorem C156_strong (m : Mirror ℝ) (qm thr dt : ℝ) (e b : V3 ℝ) (p : Phase ℝ) :
    strongMove qm thr dt (m.eVec e) (m.bVec b).x (m.bVec b).y (m.phase p) = m.phase (strongMove qm thr dt e b.x b.y p) := by
  have hm : (m.bVec b).x * (m.bVec b).x + (m.bVec b).y * (m.bVec b).y = b.x * b.x + b.y * b.y := by
    simp only [Mirror.bVec, Mirror.det]
    rcases sign_cases m.hx with hx | hx <;> rcases sign_cases m.hy with hy | hy <;> rcases sign_cases m.hz with hz | hz <;>
      simp only [hx, hy, hz] <;> ring
  unfold strongMove
  rw [hm]
  generalize Real.sqrt (b.x * b.x + b.y * b.y) = B
  dsimp only
  by_cases hB : B < thr
  · simp only [if_pos hB, Mirror.phase, Mirror.eVec, Phase.mk.injEq]
    refine ⟨?_, ?_, ?_, ?_, ?_, ?_⟩ <;> first | trivial | ring
  · simp only [if_neg hB, Mirror.phase, Mirror.eVec, Mirror.bVec, Mirror.det]
    rcases sign_cases m.hx with hx | hx <;> rcases sign_cases m.hy with hy | hy <;> rcases sign_cases m.hz with hz | hz <;>
      simp only [hx, hy, hz, Phase.mk.injEq] <;> refine ⟨?_, ?_, ?_, ?_, ?_, ?_⟩ <;> ring

theorem ellLevel_mir (m : Mirror ℝ) (a b x y : ℝ) : ellLevel a b (m.sx * x) (m.sy * y) = ellLevel a b x y := by
  unfold ellLevel
  rw [mul_div_assoc, mul_div_assoc, mul_pow, mul_pow, sq m.sx, sq m.sy, m.hx, m.hy, one_mul, one_mul]

theorem ellMix_mir (s t u v : ℝ) : ellMix t (s * u) (s * v) = s * ellMix t u v := by unfold ellMix; ring

theorem ellNormal_quot (a b x y : ℝ) (ha : 0 < a) (hb : 0 < b) (h : x ≠ 0 ∨ y ≠ 0) :
    ellNormal a b x y = ((-(b * (b * x))) / Real.sqrt (b * (b * x) * (b * (b * x)) + a * (a * y) * (a * (a * y))),
      (-(a * (a * y))) / Real.sqrt (b * (b * x) * (b * (b * x)) + a * (a * y) * (a * (a * y)))) := by
  set z : ℂ := ⟨b * x, a * y⟩ with hzd
  have hz : z ≠ 0 := by
    intro h0
    have h1 := congrArg Complex.re h0
    have h2 := congrArg Complex.im h0
    simp only [hzd, Complex.zero_re, Complex.zero_im, mul_eq_zero] at h1 h2
    rcases h with h | h
    · exact h1.elim (fun e => hb.ne' e) h
    · exact h2.elim (fun e => ha.ne' e) h
  have hn : 0 < ‖z‖ := norm_pos_iff.mpr hz
  unfold ellNormal
  simp only []
  rw [← hzd, Complex.cos_arg hz, Complex.sin_arg z]
  have e1 : z.re = b * x := rfl
  have e2 : z.im = a * y := rfl
  rw [e1, e2]
  have hneg : ¬ (0 < -(b * (b * x / ‖z‖)) * x + -a * (a * y / ‖z‖) * y) := by
    have : -(b * (b * x / ‖z‖)) * x + -a * (a * y / ‖z‖) * y = -(((b * x) * (b * x) + (a * y) * (a * y)) / ‖z‖) := by ring
    rw [this, not_lt, neg_nonpos]
    exact div_nonneg (add_nonneg (mul_self_nonneg _) (mul_self_nonneg _)) hn.le
  rw [if_neg hneg, if_neg hneg]
  have hs : Real.sqrt (-(b * (b * x / ‖z‖)) * -(b * (b * x / ‖z‖)) + -a * (a * y / ‖z‖) * (-a * (a * y / ‖z‖))) =
      Real.sqrt (b * (b * x) * (b * (b * x)) + a * (a * y) * (a * (a * y))) / ‖z‖ := by
    rw [show -(b * (b * x / ‖z‖)) * -(b * (b * x / ‖z‖)) + -a * (a * y / ‖z‖) * (-a * (a * y / ‖z‖)) =
      (b * (b * x) * (b * (b * x)) + a * (a * y) * (a * (a * y))) / ‖z‖ ^ 2 by ring, Real.sqrt_div' _ (by positivity),
      Real.sqrt_sq hn.le]
  rw [hs]
  refine Prod.ext ?_ ?_
  · simp only []
    rw [show -(b * (b * x / ‖z‖)) = (-(b * (b * x))) / ‖z‖ by ring, div_div_div_cancel_right₀ hn.ne']
  · simp only []
    rw [show -a * (a * y / ‖z‖) = (-(a * (a * y))) / ‖z‖ by ring, div_div_div_cancel_right₀ hn.ne']

theorem ellNormal_mir (m : Mirror ℝ) (a b x y : ℝ) (ha : 0 < a) (hb : 0 < b) (h : x ≠ 0 ∨ y ≠ 0) :
    ellNormal a b (m.sx * x) (m.sy * y) = m.pnt (ellNormal a b x y) := by
  have h' : m.sx * x ≠ 0 ∨ m.sy * y ≠ 0 := by
    have h1 : m.sx ≠ 0 := fun e => by have := m.hx; rw [e] at this; norm_num at this
    have h2 : m.sy ≠ 0 := fun e => by have := m.hy; rw [e] at this; norm_num at this
    exact h.imp (mul_ne_zero h1) (mul_ne_zero h2)
  rw [ellNormal_quot a b _ _ ha hb h', ellNormal_quot a b _ _ ha hb h]
  have e : b * (b * (m.sx * x)) * (b * (b * (m.sx * x))) + a * (a * (m.sy * y)) * (a * (a * (m.sy * y))) =
      b * (b * x) * (b * (b * x)) + a * (a * y) * (a * (a * y)) := by
    linear_combination (b * b * x * (b * b * x)) * m.hx + (a * a * y * (a * a * y)) * m.hy
  rw [e]
  simp only [Mirror.pnt, Prod.mk.injEq]
  constructor <;> ring

theorem ellT0_mir (m : Mirror ℝ) (a b resc xi yi xo yo : ℝ) :
    ellT0 a b resc (m.sx * xi) (m.sy * yi) (m.sx * xo) (m.sy * yo) = ellT0 a b resc xi yi xo yo := by
  unfold ellT0 ellRoot ellDisc ellDen
  have q : ∀ {s : ℝ}, s * s = 1 → ∀ u v : ℝ, s * u * (s * v) = u * v := by
    intro s hs u v
    linear_combination u * v * hs
  have q' : ∀ {s : ℝ}, s * s = 1 → ∀ u v : ℝ, (s * u - s * v) * (s * u - s * v) = (u - v) * (u - v) := by
    intro s hs u v
    linear_combination (u - v) * (u - v) * hs
  simp only [q m.hx, q m.hy, q' m.hx, q' m.hy]

theorem ellBack_mir (m : Mirror ℝ) (a b xi yi xo yo : ℝ) (n : ℕ) (t : ℝ) :
    ellBack a b (m.sx * xi) (m.sy * yi) (m.sx * xo) (m.sy * yo) n t = ellBack a b xi yi xo yo n t := by
  induction n generalizing t with
  | zero => rfl
  | succ n ih => rw [ellBack, ellBack, ellMix_mir, ellMix_mir, ellLevel_mir, ih]

theorem ellOutside_mir (m : Mirror ℝ) (a b x y : ℝ) : ellOutside a b (m.sx * x) (m.sy * y) = ellOutside a b x y := by
  unfold ellOutside
  rw [ellLevel_mir]

theorem ellProj_mir (m : Mirror ℝ) (a b x y : ℝ) : ellProj a b (m.sx * x) (m.sy * y) = m.pnt (ellProj a b x y) := by
  have h := ellLevel_mir m a b x y
  unfold ellLevel at h
  unfold ellProj
  rw [h]
  simp only [Mirror.pnt, Prod.mk.injEq]
  constructor <;> ring

/-- **C156** (partial): the elliptical chamber is its own mirror image: the same points are outside, and the mirrored trajectory hits it
at the mirrored point with the mirrored normal. Missing: hits in the very centre, where the normal is a fixed direction. -/
theorem C156_ellipse_partial (m : Mirror ℝ) (a b resc : ℝ) (robust : Bool) (ha : 0 < a) (hb : 0 < b) :
    (m.chamber (ellChamber a b resc robust)).outside = (ellChamber a b resc robust).outside ∧
    ∀ p q h, (ellChamber a b resc robust).hit p q = .ok h → (h.x ≠ 0 ∨ h.y ≠ 0) →
      (ellChamber a b resc robust).hit (m.vec p) (m.vec q) = .ok (m.hit h) := by
  constructor
  · funext x y
    exact ellOutside_mir m a b x y
  · intro p q h hh hne
    simp only [ellChamber, ellHit, Mirror.vec] at hh ⊢
    rw [ellT0_mir]
    generalize ellT0 a b resc p.1 p.2.1 q.1 q.2.1 = t0 at hh ⊢
    rw [ellBack_mir]
    generalize (if robust = true then ellBack a b p.1 p.2.1 q.1 q.2.1 10 t0 else t0) = t at hh ⊢
    rw [ellMix_mir, ellMix_mir, ellMix_mir, ellOutside_mir, ellProj_mir]
    generalize ellMix t p.1 q.1 = x at hh ⊢
    generalize ellMix t p.2.1 q.2.1 = y at hh ⊢
    generalize ellMix t p.2.2 q.2.2 = z at hh ⊢
    have hw : (if (robust && ellOutside a b x y) = true then m.pnt (ellProj a b x y) else (m.sx * x, m.sy * y)) =
        m.pnt (if (robust && ellOutside a b x y) = true then ellProj a b x y else (x, y)) := by
      split <;> rfl
    rw [hw]
    generalize (if (robust && ellOutside a b x y) = true then ellProj a b x y else (x, y)) = w at hh ⊢
    have hp1 : (m.pnt w).1 = m.sx * w.1 := rfl
    have hp2 : (m.pnt w).2 = m.sy * w.2 := rfl
    rw [hp1, hp2, ellOutside_mir]
    split at hh
    · cases hh
    · rename_i ho
      rw [if_neg ho]
      cases hh
      rw [ellNormal_mir m a b w.1 w.2 ha hb hne]
      rfl

/-- **C156**: at the centre of the chamber the normal is not mirrored. -/
theorem C156_centre_violated : ellNormal 1 1 0 0 ≠ (mirrorX : Mirror ℝ).pnt (ellNormal 1 1 0 0) := by
  have h0 : Complex.arg ⟨1 * 0, 1 * 0⟩ = 0 := by
    rw [show (⟨1 * 0, 1 * 0⟩ : ℂ) = 0 by apply Complex.ext <;> simp]
    exact Complex.arg_zero
  intro h
  have h1 := congrArg Prod.fst h
  unfold ellNormal at h1
  simp only [h0, Mirror.pnt, mirrorX] at h1
  norm_num at h1


/-! ## Examples -/

def SimOp.noRebuildB (S : SimCfg ℚ) (st : SimSt ℚ) : SimOp ℚ → Bool
  | .maintain i np sk sr _ _ _ =>
    match st.clouds[i]? with
    | none => true
    | some c => !(np && !sr) || !(S.full i).trigger (if np && !sk then c.mps.clean else c.mps)
  | _ => true

def noRebuildOpsB (S : SimCfg ℚ) : List (SimOp ℚ) → SimSt ℚ → Bool
  | [], _ => true
  | op :: ops, st => op.noRebuildB S st &&
    match op.apply S st with
    | .error _ => true
    | .ok st' => noRebuildOpsB S ops st'

def noRebuildB (S : SimCfg ℚ) : List (StepIn ℚ) → SimSt ℚ → Bool
  | [], _ => true
  | inp :: l, st => noRebuildOpsB S (inp.ops S st.clouds.length) st &&
    match simTimeStep S inp st with
    | .error _ => true
    | .ok st' => noRebuildB S l st'

theorem noRebuildOps_of_bool (S : SimCfg ℚ) (ops : List (SimOp ℚ)) (st : SimSt ℚ) (h : noRebuildOpsB S ops st = true) :
    noRebuildOps S ops st := by
  induction ops generalizing st with
  | nil => trivial
  | cons op ops ih =>
    simp only [noRebuildOpsB, Bool.and_eq_true] at h
    refine ⟨?_, fun st' hs => ih st' ?_⟩
    · have h1 := h.1
      cases op with
      | maintain i np sk sr d rs ra =>
        intro c hc hb
        simp only [SimOp.noRebuildB, hc, hb, Bool.not_true, Bool.false_or] at h1
        simpa using h1
      | _ => trivial
    · have h2 := h.2
      rw [hs] at h2
      exact h2

theorem noRebuild_of_bool (S : SimCfg ℚ) (l : List (StepIn ℚ)) (st : SimSt ℚ) (h : noRebuildB S l st = true) : noRebuild S l st := by
  induction l generalizing st with
  | nil => trivial
  | cons inp l ih =>
    simp only [noRebuildB, Bool.and_eq_true] at h
    refine ⟨noRebuildOps_of_bool _ _ _ h.1, fun st' hs => ih st' ?_⟩
    have h2 := h.2
    rw [hs] at h2
    exact h2

/-- the hypotheses of `C156_mirror_partial`: left and right exchanged, a run with impacts, emission, gas ionisation and cleaning -/
example : (mirrorX : Mirror ℚ).Image simExSt { simExSt with clouds := simExSt.clouds.map (fun c => { c with mps := mirrorX.mps c.mps }) } ∧
    noRebuild (simExCfg 100) [simExStep false, simExStep true] simExSt ∧
    (∃ r, simulate (simExCfg 100) [simExStep false, simExStep true] simExSt = .ok r ∧
      r.clouds.map (fun c : XCloud ℚ => ((c.mps.arr .x).take 3, c.mps.nmp)) = [([5 / 2, -3 / 2, -3 / 2], 9), ([5 / 2, 5 / 2, -2], 2)]) ∧
    ∃ r, simulate (mirrorX.cfg (simExCfg 100)) ([simExStep false, simExStep true].map (mirrorX.step (simExCfg 100)))
        { simExSt with clouds := simExSt.clouds.map (fun c => { c with mps := mirrorX.mps c.mps }) } = .ok r ∧
      r.clouds.map (fun c : XCloud ℚ => ((c.mps.arr .x).take 3, c.mps.nmp)) = [([-5 / 2, 3 / 2, 3 / 2], 9), ([-5 / 2, -5 / 2, 2], 2)] :=
  ⟨⟨rfl, rfl, rfl, rfl⟩, noRebuild_of_bool _ _ _ (by decide +kernel), exists_ok (by decide +kernel), exists_ok (by decide +kernel)⟩

theorem cplNoRebuild_within (C : CplCfg ℚ (ℕ → ℕ → ℚ)) (l : List (CplIn ℚ)) (st : CplSt ℚ (ℕ → ℕ → ℚ))
    (h : ∀ i ∈ l, i.step.newPass = false) : cplNoRebuild C l st := by
  induction l generalizing st with
  | nil => trivial
  | cons inp l ih =>
    refine ⟨fun s1 s2 _ _ => noRebuildOps_of _ _ _ ?_, fun st' _ => ih st' (fun i hi => h i (by simp [hi]))⟩
    intro op ho st
    unfold StepIn.maintOps at ho
    rw [List.mem_map] at ho
    obtain ⟨k, _, rfl⟩ := ho
    intro c _ hb
    rw [h inp (by simp)] at hb
    cases hb

/-- the hypotheses of `C156_fields_partial`: a run with the fields of the beam and of the clouds, top and bottom exchanged -/
example : (mirrorY : Mirror ℚ).PicImage (AddMonoidHom.id _) (cplExCfg 0).pic ((mirrorY : Mirror ℚ).pic (cplExCfg 0).pic) ∧
    cplNoRebuild (cplExCfg 0) [cplExIn, cplExIn] (cplExSt 0) ∧
    (mirrorY : Mirror ℚ).CplImage (AddMonoidHom.id _) (cplExSt 0)
      { cplExSt 0 with sim := { (cplExSt 0).sim with clouds := (cplExSt 0).sim.clouds.map (fun c => { c with mps := Mirror.mps (mirrorY : Mirror ℚ) c.mps }) } } ∧
    (∃ r, cplRun (cplExCfg 0) [cplExIn, cplExIn] (cplExSt 0) = .ok r ∧ r.field (cplExCfg 0) 1 1 = (-6209 / 8192, 1 / 8)) ∧
    ∃ r, cplRun ((mirrorY : Mirror ℚ).cplCfg ((mirrorY : Mirror ℚ).pic (cplExCfg 0).pic) (cplExCfg 0)) ([cplExIn, cplExIn].map ((mirrorY : Mirror ℚ).cplIn (cplExCfg 0).S))
      { cplExSt 0 with sim := { (cplExSt 0).sim with clouds := (cplExSt 0).sim.clouds.map (fun c => { c with mps := Mirror.mps (mirrorY : Mirror ℚ) c.mps }) } }
        = .ok r ∧ r.field ((mirrorY : Mirror ℚ).cplCfg ((mirrorY : Mirror ℚ).pic (cplExCfg 0).pic) (cplExCfg 0)) 1 (-1) = (-6209 / 8192, -1 / 8) :=
  ⟨pic_image _ _, cplNoRebuild_within _ _ _ (by simp [cplExIn, simExStep]), ⟨⟨rfl, rfl, rfl, rfl⟩, rfl, rfl⟩,
    exists_ok (by decide +kernel), exists_ok (by decide +kernel)⟩

/-- the hypotheses of `C156_density` and `C156_gather` -/
example : (-2 : ℚ) = -((((5 : ℕ) : ℚ) - 1) / 2 * 1) ∧ InAxis 5 (-2) 1 (1 / 4 : ℚ) ∧ (1 / 4 : ℚ) ≠ -2 ∧
    computeRho 5 5 (-2) (-2) 1 [((1 / 4 : ℚ), 1 / 2, 8)] 3 3 = 3 ∧
    Mirror.node ((mirrorX : Mirror ℚ).sx) 5 2 = 4 ∧ Mirror.node ((mirrorX : Mirror ℚ).sy) 5 2 = 2 := by decide +kernel

/-- a yield of energy and angle, for `C156_ecloud` -/
example : ∀ (m : Mirror ℚ) (k : ℕ) (i : Impact ℚ), (fun (_ : ℕ) (i : Impact ℚ) => (i.nel * i.en / (1 + i.en) * i.cth, decide (i.en < 1))) k (m.impact i) =
    (fun (_ : ℕ) (i : Impact ℚ) => (i.nel * i.en / (1 + i.en) * i.cth, decide (i.en < 1))) k i := fun _ _ _ => rfl

/-- the mirrors of `C156_angles` -/
example : (mirrorX : Mirror ℝ).sz = 1 ∧ (mirrorY : Mirror ℝ).sz = 1 := ⟨rfl, rfl⟩

/-- a hit off the centre, for `C156_ellipse_partial` -/
example : ∃ h, (ellChamber 1 1 1 false).hit (0, 0, 0) (2, 0, 0) = .ok h ∧ (h.x ≠ 0 ∨ h.y ≠ 0) := by
  refine ⟨_, rfl, Or.inl ?_⟩
  have h1 : ellRoot 1 1 0 0 2 0 = 1 / 2 := by
    unfold ellRoot ellDisc ellDen
    norm_num
    rw [show (4 : ℝ) = 2 ^ 2 by norm_num, Real.sqrt_sq (by norm_num)]
    norm_num
  have h2 : ellT0 1 1 1 0 0 2 0 = 1 / 2 := by
    unfold ellT0
    rw [h1]
    norm_num
  simp [h2, ellMix]

end PyECLOUD
