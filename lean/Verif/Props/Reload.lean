import Verif.Spec.Reload
import Verif.Lemmas.ScaleSim
import Verif.Props.FullRun

/-!
# Saving and loading the simulation state: C153
-/

set_option linter.unusedSectionVars false

namespace PyECLOUD

variable {K : Type} [Field K] [LinearOrder K] [IsStrictOrderedRing K] [FloorRing K]

theorem setPrefix_own {α : Type} (l : List α) (n : ℕ) (h : n ≤ l.length) : setPrefix l (l.take n) = l := by
  unfold setPrefix
  rw [List.length_take, min_eq_left h, List.take_append_drop]

theorem zeroTail_self (l : List K) (n : ℕ) (h : ∀ i, n ≤ i → l.getD i 0 = 0) : zeroTail l n = l := by
  unfold zeroTail
  apply List.ext_getElem?
  intro i
  have := h i
  simp only [List.getD_eq_getElem?_getD] at this
  grind

theorem maskSel_all {α : Type} (l : List α) : maskSel l (List.replicate l.length true) = l := by
  induction l with
  | nil => rfl
  | cons a l ih =>
    rw [List.length_cons, List.replicate_succ]
    show a :: maskSel l _ = _
    rw [ih]

/-- a cloud without small macroparticles is not changed by cleaning -/
theorem clean_self (m : MPs K) (h : m.WF) (hz : m.ZeroTail) (hn : 0 < m.nmp) (hl : ∀ p ∈ m.live, m.clTh ≤ p .nel) :
    m.clean = m := by
  have hm : cleanMask m = List.replicate m.nmp true := by
    have h2 : cleanMask m = m.live.map (fun p => !decide (p .nel < m.clTh)) := by
      have := live_col_main m h .nel (by decide)
      rw [cleanMask, ← this, List.map_map]; rfl
    rw [h2, List.eq_replicate_iff]
    constructor
    · simp [MPs.live]
    · intro b hb
      obtain ⟨p, hp, rfl⟩ := List.mem_map.1 hb
      have := hl p hp
      simp [not_lt.2 this]
  have hc : countTrue (cleanMask m) = m.nmp := by rw [hm]; simp [countTrue]
  rw [clean_eq m h, if_neg (by omega)]
  have hsel : ∀ f, maskSel (m.arr f) (fullMask m (cleanMask m)) = (m.arr f).take m.nmp := by
    intro f
    rw [maskSel_fullMask m _ h (cleanMask_length m h), hm]
    have hlen : ((m.arr f).take m.nmp).length = m.nmp := by
      rw [List.length_take, h.len, min_eq_left h.fits]
    have := maskSel_all ((m.arr f).take m.nmp)
    rwa [hlen] at this
  have hpre : ∀ f, setPrefix (m.arr f) (maskSel (m.arr f) (fullMask m (cleanMask m))) = m.arr f := by
    intro f
    rw [hsel]
    exact setPrefix_own _ _ (by rw [h.len]; exact h.fits)
  have hnm : countTrue (fullMask m (cleanMask m)) = m.nmp := by rw [countTrue_fullMask, hc]
  apply MPs.ext'
  all_goals first | rfl | skip
  · funext f
    simp only [MPs.compact]
    cases f <;> simp only [hpre, hnm, ite_self]
    exact zeroTail_self _ _ hz
  · exact hnm

theorem maintenance_self (m : MPs K) (np sc sr : Bool) (full : FullCfg K) (cfg : RegenCfg) (fuel : ℕ) (d : FullDraws K)
    (rs ra : ℕ → K) (h : m.WF) (hz : m.ZeroTail) (hq : NothingToDo full cfg m) :
    m.maintenance np sc sr full cfg fuel d rs ra = .ok m := by
  have hcl := clean_self m h hz hq.some hq.large
  have ht : full.trigger m = false := by
    unfold FullCfg.trigger
    have h1 := hq.notMany
    rw [decide_eq_false_iff_not]
    rintro (h2 | ⟨h2, h3⟩)
    · omega
    · rcases hq.notFew with h4 | h4
      · omega
      · exact absurd h3 (not_lt.2 h4)
  have hr : m.checkRegen full fuel d = .ok m := by
    unfold MPs.checkRegen
    rw [ht]
    rfl
  have hs : m.checkSoft cfg rs = m := by
    unfold MPs.checkSoft
    split
    · rfl
    · next thr tgt he => rw [if_neg (not_lt.2 (hq.soft _ _ he))]
  have ha : m.checkAsync cfg ra = m := by
    unfold MPs.checkAsync
    split
    · rfl
    · next thr tgt he => rw [if_neg (not_lt.2 (hq.async _ _ he))]
  have h1 : (if np && !sc then m.clean else m) = m := by rw [hcl, ite_self]
  unfold MPs.maintenance
  simp only [h1, hr, hs]
  cases (np && !sr) <;> simp [ha]

theorem put_self (st : SimSt K) (i : ℕ) (c : XCloud K) (h : st.clouds[i]? = some c) : st.put i c.mps = st := by
  unfold SimSt.put
  have : st.clouds.modify i (fun c' => { c' with mps := c.mps }) = st.clouds := by
    apply List.ext_getElem?
    intro j
    rw [List.getElem?_modify]
    by_cases hj : i = j
    · subst hj
      simp [h]
    · simp [hj]
  rw [this]

/-- the operations after the savers leave a state alone in which they have nothing to do -/
theorem maintOps_self (S : SimCfg K) (inp : StepIn K) (st : SimSt K) (n : ℕ) (hn : n ≤ st.clouds.length)
    (hq : ∀ (i : ℕ) c, st.clouds[i]? = some c → c.mps.WF ∧ c.mps.ZeroTail ∧ NothingToDo (S.full i) (S.regen i) c.mps) :
    simRun S (inp.maintOps n) st = .ok st := by
  unfold StepIn.maintOps
  have : ∀ l : List ℕ, (∀ i ∈ l, i < st.clouds.length) → simRun S (l.map (fun i =>
      SimOp.maintain i inp.newPass inp.skipClean inp.skipRegen (inp.fullD i) (inp.randSoft i) (inp.randAsync i))) st = .ok st := by
    intro l
    induction l with
    | nil => intro _; rfl
    | cons i l ih =>
      intro hl
      have hi := hl i (by simp)
      have hc : st.clouds[i]? = some (st.clouds[i]) := List.getElem?_eq_getElem hi
      obtain ⟨h1, h2, h3⟩ := hq i _ hc
      simp only [List.map_cons, simRun, SimOp.apply, SimSt.onCloud, hc]
      rw [maintenance_self _ _ _ _ _ _ _ _ _ _ h1 h2 h3]
      simp only [put_self st i _ hc]
      exact ih (fun j hj => hl j (by simp [hj]))
  exact this _ (fun i hi => lt_of_lt_of_le (List.mem_range.1 hi) hn)

theorem simulate_append (S : SimCfg K) (a b : List (StepIn K)) (st : SimSt K) :
    simulate S (a ++ b) st = (match simulate S a st with | .error e => .error e | .ok st' => simulate S b st') := by
  induction a generalizing st with
  | nil => rfl
  | cons inp a ih =>
    simp only [List.cons_append, simulate]
    cases simTimeStep S inp st with
    | error e => rfl
    | ok st' => exact ih st'

theorem simulate_length (S : SimCfg K) (steps : List (StepIn K)) (st st' : SimSt K) (h : simulate S steps st = .ok st') :
    st'.clouds.length = st.clouds.length := by
  rw [simulate_eq] at h
  exact simRun_length S _ _ _ h

/-- **C153**: a run that goes on and a run that was stopped, saved and loaded in the same step: whatever the operations, they
differ only by the cleaning and the regenerations of that step, which the loaded run does not do. `fresh` is the new simulation
with as many clouds, whose cross ionisation is in the state of the saved one (or both have none). -/
theorem C153_difference (S : SimCfg K) (pre : List (StepIn K)) (inp : StepIn K) (rest : List (StepIn K)) (st0 fresh : SimSt K)
    (hn : fresh.clouds.length = st0.clouds.length)
    (hx : ∀ st, seenBySaver S pre inp st0 = .ok st → st.cross = fresh.cross) :
    simulate S (pre ++ inp :: rest) st0 = (do
      let st ← seenBySaver S pre inp st0
      let st1 ← simRun S (inp.maintOps st0.clouds.length) st
      simulate S rest st1) ∧
    reloaded S pre inp rest st0 fresh = (do
      let st ← seenBySaver S pre inp st0
      simulate S rest st) := by
  constructor
  · rw [simulate_append]
    unfold seenBySaver
    cases hp : simulate S pre st0 with
    | error e => rfl
    | ok st =>
      have hl := simulate_length S _ _ _ hp
      simp only [simulate, simTimeStep, ops_split, simRun_append, hl]
      cases simRun S (inp.moveOps S st0.clouds.length) st with
      | error e => rfl
      | ok st1 =>
        simp only [bind, Except.bind]
        cases simRun S (inp.maintOps st0.clouds.length) st1 <;> rfl
  · unfold reloaded
    cases hs : seenBySaver S pre inp st0 with
    | error e => rfl
    | ok st =>
      have hl : st.clouds.length = st0.clouds.length := by
        unfold seenBySaver at hs
        cases hp : simulate S pre st0 with
        | error e => rw [hp] at hs; cases hs
        | ok st1 =>
          rw [hp] at hs
          rw [simRun_length S _ _ _ hs, simulate_length S _ _ _ hp]
      have hld : loadState st.file fresh = .ok st := by
        unfold loadState SimSt.file
        dsimp only
        rw [if_neg (by omega), hn, ← hl, List.take_length, ← hx st hs]
      simp only [hld]
      rfl

/-- **C153** (partial): if in the step in which the state was saved cleaning and regenerations had nothing to do, the run that
is loaded and continued gives the same result, or the same exception, as the run that was never interrupted. Missing: the
cross ionisation is not saved, see `C153_violated`; the maintenance is skipped otherwise, see `C76_violated`. -/
theorem C153_continues_partial (S : SimCfg K) (pre : List (StepIn K)) (inp : StepIn K) (rest : List (StepIn K))
    (st0 fresh : SimSt K) (hn : fresh.clouds.length = st0.clouds.length)
    (hx : ∀ st, seenBySaver S pre inp st0 = .ok st → st.cross = fresh.cross)
    (hq : ∀ st, seenBySaver S pre inp st0 = .ok st → ∀ (i : ℕ) c, st.clouds[i]? = some c →
      c.mps.WF ∧ c.mps.ZeroTail ∧ NothingToDo (S.full i) (S.regen i) c.mps) :
    reloaded S pre inp rest st0 fresh = simulate S (pre ++ inp :: rest) st0 := by
  obtain ⟨h1, h2⟩ := C153_difference S pre inp rest st0 fresh hn hx
  rw [h1, h2]
  cases hs : seenBySaver S pre inp st0 with
  | error e => rfl
  | ok st =>
    have hl : st.clouds.length = st0.clouds.length := by
      unfold seenBySaver at hs
      cases hp : simulate S pre st0 with
      | error e => rw [hp] at hs; cases hs
      | ok st1 =>
        rw [hp] at hs
        rw [simRun_length S _ _ _ hs, simulate_length S _ _ _ hp]
    simp only [bind, Except.bind]
    rw [maintOps_self S inp st _ (le_of_eq hl.symm) (hq st hs)]

/-- **C153**: without cross ionisation nothing has to be asked of it. -/
theorem C153_no_cross (S : SimCfg K) (pre : List (StepIn K)) (inp : StepIn K) (st0 fresh : SimSt K) (h0 : st0.cross = none)
    (hf : fresh.cross = none) (st : SimSt K) (h : seenBySaver S pre inp st0 = .ok st) : st.cross = fresh.cross := by
  unfold seenBySaver at h
  cases hp : simulate S pre st0 with
  | error e => rw [hp] at h; cases h
  | ok st1 =>
    rw [hp] at h
    rw [simulate_eq] at hp
    have a := simRun_cross S _ _ _ hp
    have b := simRun_cross S _ _ _ h
    rw [a, h0] at b
    rw [hf]
    cases hc : st.cross with
    | none => rfl
    | some x => rw [hc] at b; cases b

/-- **C153**: a simulation with more clouds than were saved cannot load the state; one with fewer clouds loads the first ones. -/
theorem C153_number (f : SimFile K) (fresh : SimSt K) :
    (f.clouds.length < fresh.clouds.length → loadState f fresh = .error .indexError) ∧
    (fresh.clouds.length ≤ f.clouds.length → ∃ st, loadState f fresh = .ok st ∧ st.clouds.length = fresh.clouds.length ∧
      ∀ (i : ℕ), i < fresh.clouds.length → st.clouds[i]? = f.clouds[i]?) := by
  constructor
  · intro h
    unfold loadState
    rw [if_pos h]
  · intro h
    refine ⟨_, if_neg (not_lt.2 h), ?_, ?_⟩
    · simp [h]
    · intro i hi
      simp [List.getElem?_take, hi]

/-- **C153**: writing the state does not disturb the simulation that goes on: the savers, the factorised matrix and the
potentials are back in place (the only thing that is not is the attribute `luobj` of the space charge object itself, which
nothing reads). -/
theorem C153_undisturbed {V : Type} (last : Bool) (o : SaveObj V) :
    (o.save last).2 = { o with scLu := if last then none else o.scLu } := by
  unfold SaveObj.save
  cases last with
  | false => rfl
  | true =>
    simp only [if_true, SaveObj.putBack, SaveObj.strip]
    congr 1
    · induction o.savers with
      | nil => rfl
      | cons a l ih => rw [List.map_cons, List.zipWith_cons_cons, ih]
    all_goals split <;> rfl

/-- **C153**: only the saver of the last cloud writes; the file contains no saver and no factorised matrix, and with
electromagnetic tracking no potential. After loading the savers are those of the new simulation and the matrix is
factorised again. -/
theorem C153_written {V : Type} (last : Bool) (o : SaveObj V) (savers : List (Option V)) (lu new : V) :
    ((o.save last).1.isSome = last) ∧ ∀ f, (o.save last).1 = some f →
      (∀ s ∈ f.savers, s = none) ∧ f.savers.length = o.savers.length ∧ f.lu = none ∧
      (o.em = true → f.ax = none ∧ f.ay = none ∧ f.as = none ∧ f.axOld = none ∧ f.ayOld = none) ∧
      (f.load savers lu new).savers = savers ∧ (f.load savers lu new).lu = some lu ∧
      (o.em = true → (f.load savers lu new).ax = some new ∧ (f.load savers lu new).ay = some new ∧
        (f.load savers lu new).as = some new ∧ (f.load savers lu new).axOld = none ∧ (f.load savers lu new).ayOld = none) := by
  unfold SaveObj.save
  cases last with
  | false => exact ⟨rfl, fun f h => by cases h⟩
  | true =>
    refine ⟨rfl, fun f h => ?_⟩
    cases h
    refine ⟨by simp [SaveObj.strip], by simp [SaveObj.strip], rfl, fun he => by simp [SaveObj.strip, he], rfl, rfl, fun he => by
      simp [SaveObj.strip, SaveObj.load, he]⟩

/-- a step without motion: only the cross ionisation, at a passage without cleaning and regenerations -/
def reloadStep : StepIn ℚ := { simExStep true with dt := 1 / 2, skipClean := true, skipRegen := true, motion := fun _ _ p => p }

/-- no gas ionisation -/
def reloadCfg : SimCfg ℚ := { simExCfg 100 with gas := fun _ => ⟨false, 0, 0, 0, 0, 0, 0⟩ }

/-- no macroparticle below the cleaning threshold -/
def reloadMps : MPs ℚ := { simCloud with arr := fun f => if f = .nel then [10, 5, 20, 0, 0, 0, 0, 0, 0, 0, 0, 0] else simCloud.arr f }

/-- three clouds with room, the first the projectile of a process with the two others as products; the state after `init` -/
def reloadSt : SimSt ℚ :=
  ⟨[⟨0, 2, reloadMps⟩, ⟨1, 1, { reloadMps with nmp := 0 }⟩, ⟨2, 1, { reloadMps with nmp := 0 }⟩], fun _ => slabHist,
    fun _ => ⟨0, 0, 0, 0⟩, some ⟨[(0, [exProc false])], 0, 0, 0⟩⟩

/-- densities of the target gas -/
def SimSt.dens (st : SimSt ℚ) : List ℚ :=
  match st.cross with
  | none => []
  | some x => x.projs.flatMap (fun q => q.2.map (fun p => p.dens))

/-- **C153 fails** (witness): the densities of the target gases are not saved, the restarted run ionises gas that was used up.
In both runs the state is saved in the first of two steps in which nothing is cleaned or regenerated; the run that goes on has 28
particles of each product at the end, the restarted one 32. -/
theorem C153_violated :
    (∃ r, simulate reloadCfg [reloadStep, reloadStep] reloadSt = .ok r ∧ r.charge 1 = 28 ∧ r.charge 2 = 28 ∧
      r.dens = [14049 / 2000]) ∧
    ∃ r, reloaded reloadCfg [] reloadStep [reloadStep] reloadSt reloadSt = .ok r ∧ r.charge 1 = 32 ∧ r.charge 2 = 32 ∧
      r.dens = [20953 / 2500] :=
  ⟨exists_ok (by decide +kernel), exists_ok (by decide +kernel)⟩

/-- executable version of the hypothesis -/
def quietB (full : FullCfg ℚ) (cfg : RegenCfg) (m : MPs ℚ) : Bool :=
  [Fld.x, .y, .z, .vx, .vy, .vz, .nel, .tl].all (fun f => (m.arr f).length == m.cap) && decide (m.nmp ≤ m.cap) &&
  ((m.arr .nel).drop m.nmp).all (fun v => v == 0) && decide (0 < m.nmp) && m.live.all (fun p => decide (m.clTh ≤ p .nel)) &&
  decide (m.nmp ≤ full.nRegen) && decide (full.nRegenLow ≤ m.nmp ∨ m.ref ≤ m.ref0) &&
  (match cfg.soft with | none => true | some q => decide (m.nmp ≤ q.1)) &&
  (match cfg.async with | none => true | some q => decide (m.nmp ≤ q.1))

theorem quietB_spec (full : FullCfg ℚ) (cfg : RegenCfg) (m : MPs ℚ) (h : quietB full cfg m = true) :
    m.WF ∧ m.ZeroTail ∧ NothingToDo full cfg m := by
  simp only [quietB, Bool.and_eq_true, List.all_eq_true, decide_eq_true_eq, beq_iff_eq] at h
  obtain ⟨⟨⟨⟨⟨⟨⟨⟨h1, h2⟩, h3⟩, h4⟩, h5⟩, h6⟩, h7⟩, h8⟩, h9⟩ := h
  refine ⟨⟨fun f => h1 f (by cases f <;> simp), h2⟩, ?_, ⟨h4, h5, h6, h7, ?_, ?_⟩⟩
  · intro i hi
    by_cases hlt : i < (m.arr .nel).length
    · have : (m.arr .nel)[i] ∈ (m.arr .nel).drop m.nmp := by
        rw [List.mem_iff_getElem]
        refine ⟨i - m.nmp, by rw [List.length_drop]; omega, ?_⟩
        rw [List.getElem_drop]
        congr 1
        omega
      rw [List.getD_eq_getElem?_getD, List.getElem?_eq_getElem hlt]
      exact h3 _ this
    · rw [List.getD_eq_getElem?_getD, List.getElem?_eq_none (by omega)]
      rfl
  · intro thr tgt he
    rw [he] at h8
    simpa using h8
  · intro thr tgt he
    rw [he] at h9
    simpa using h9

/-- impacts, emission and gas ionisation, and nothing to clean or regenerate when the state is saved -/
def calmSt : SimSt ℚ := ⟨[⟨0, 2, reloadMps⟩], fun _ => slabHist, fun _ => ⟨0, 0, 0, 0⟩, none⟩

theorem calm_quiet : ∃ st, seenBySaver (simExCfg 100) [simExStep false] (simExStep true) calmSt = .ok st ∧
    st.clouds.all (fun c : XCloud ℚ => quietB ((simExCfg 100).full 0) ((simExCfg 100).regen 0) c.mps) = true ∧
    st.clouds.map (fun c : XCloud ℚ => c.mps.nmp) = [10] :=
  exists_ok (by decide +kernel)

/-- the hypotheses of `C153_continues_partial` hold for it, with the new simulation in its initial state -/
example : calmSt.clouds.length = calmSt.clouds.length ∧
    (∀ st, seenBySaver (simExCfg 100) [simExStep false] (simExStep true) calmSt = .ok st → st.cross = calmSt.cross) ∧
    (∀ st, seenBySaver (simExCfg 100) [simExStep false] (simExStep true) calmSt = .ok st → ∀ (i : ℕ) c, st.clouds[i]? = some c →
      c.mps.WF ∧ c.mps.ZeroTail ∧ NothingToDo ((simExCfg 100).full i) ((simExCfg 100).regen i) c.mps) := by
  refine ⟨rfl, fun st h => C153_no_cross _ _ _ calmSt calmSt rfl rfl st h, fun st h i c hc => ?_⟩
  obtain ⟨st', h1, h2, -⟩ := calm_quiet
  rw [h] at h1
  cases h1
  exact quietB_spec _ _ _ (List.all_eq_true.1 h2 c (List.mem_of_getElem? hc))

/-- saving with electromagnetic tracking and two clouds -/
example : ((⟨[some 1, some 2], some 3, some 4, true, some 5, some 6, some 7, some 8, none⟩ : SaveObj ℕ).save true).1.map
    (fun f => (f.savers, f.lu, f.axOld)) = some ([none, none], none, none) := by decide +kernel

end PyECLOUD
