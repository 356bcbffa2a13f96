import Verif.Lemmas.SimStep
import Verif.Props.Impact
import Verif.Props.Regen
import Verif.Props.CrossIon
import Verif.Props.Sources

/-!
# Properties of whole simulations (C89, C90)

`simulate` runs `sim_time_step` for a list of step inputs. The motion of the macroparticles, the emission models, the
beams and all random numbers are arbitrary inputs.
-/

namespace PyECLOUD

set_option linter.unusedSectionVars false

variable {K : Type} [Field K] [LinearOrder K] [IsStrictOrderedRing K] [FloorRing K]

/-! ## C109 -/

theorem primary_cloud (S : SimCfg K) (inp : StepIn K) (i : ℕ) (op : SimOp K) (h : op ∈ inp.primaryOps S i) :
    op.cloud = some i ∧ op.stage = 0 := by
  unfold StepIn.primaryOps at h
  rcases List.mem_append.1 h with h | h
  · split at h
    · obtain ⟨k, hk, rfl⟩ := List.mem_mapIdx.1 h
      exact ⟨rfl, rfl⟩
    · cases h
  · dsimp only at h
    split at h
    · cases h
    · rw [List.mem_singleton.1 h]; exact ⟨rfl, rfl⟩
    · rw [List.mem_singleton.1 h]; exact ⟨rfl, rfl⟩

theorem flatMap_filter_one {α : Type} (n i : ℕ) (hi : i < n) (f : ℕ → List α) (p : α → Bool)
    (hp : ∀ j, ∀ a ∈ f j, p a = decide (j = i)) : ((List.range n).flatMap f).filter p = f i := by
  induction n with
  | zero => omega
  | succ n ih =>
    rw [List.range_succ, List.flatMap_append, List.filter_append]
    simp only [List.flatMap_cons, List.flatMap_nil, List.append_nil]
    rcases Nat.lt_succ_iff_lt_or_eq.1 hi with h | h
    · rw [ih h]
      have : (f n).filter p = [] := by
        rw [List.filter_eq_nil_iff]
        intro a ha
        rw [hp n a ha]
        simp; omega
      rw [this, List.append_nil]
    · subst h
      have h1 : ((List.range i).flatMap f).filter p = [] := by
        rw [List.filter_eq_nil_iff]
        intro a ha
        obtain ⟨j, hj, ha⟩ := List.mem_flatMap.1 ha
        rw [hp j a ha]
        have := List.mem_range.1 hj
        simp; omega
      have h2 : (f i).filter p = f i := by
        rw [List.filter_eq_self]
        intro a ha
        rw [hp i a ha]
        simp
      rw [h1, h2, List.nil_append]

/-- **C109**: in one time step every cloud undergoes exactly its duties, each once and in order. -/
theorem C109_cloud (S : SimCfg K) (n : ℕ) (inp : StepIn K) (i : ℕ) (hi : i < n) :
    (inp.ops S n).filter (fun op => decide (op.cloud = some i)) = inp.duties S i := by
  unfold StepIn.ops
  rw [List.filter_append, List.filter_append, flatMap_filter_one n i hi]
  · have h2 : ([SimOp.cross inp.dt inp.xD] : List (SimOp K)).filter (fun op => decide (op.cloud = some i)) = [] := by
      simp [SimOp.cloud]
    have h3 : ((List.range n).map (fun i => SimOp.maintain i inp.newPass inp.skipClean inp.skipRegen (inp.fullD i)
        (inp.randSoft i) (inp.randAsync i))).filter (fun op => decide (op.cloud = some i)) =
        [SimOp.maintain i inp.newPass inp.skipClean inp.skipRegen (inp.fullD i) (inp.randSoft i) (inp.randAsync i)] := by
      rw [List.map_eq_flatMap]
      refine flatMap_filter_one n i hi _ _ ?_
      intro j a ha
      rw [List.mem_singleton.1 ha]
      simp [SimOp.cloud]
    rw [h2, h3, List.append_nil]
    unfold StepIn.duties StepIn.primaryOps
    simp only [List.map_cons, List.sum_cons, List.cons_append, List.append_assoc, and_comm]
    rfl
  · intro j a ha
    rcases List.mem_cons.1 ha with rfl | ha
    · simp [SimOp.cloud]
    · rw [(primary_cloud S inp j a ha).1]
      simp

/-- **C109**: nothing else happens: every operation of the step works on one of the clouds, except one cross-ionisation call;
all motion and primary electrons come before it, all cleaning and regeneration after it. -/
theorem C109_stages (S : SimCfg K) (n : ℕ) (inp : StepIn K) :
    (∀ op ∈ inp.ops S n, op.stage ≠ 1 → ∃ i < n, op.cloud = some i) ∧
    ∃ a b, inp.ops S n = a ++ [SimOp.cross inp.dt inp.xD] ++ b ∧ (∀ op ∈ a, op.stage = 0) ∧ (∀ op ∈ b, op.stage = 2) := by
  constructor
  · intro op hop h1
    unfold StepIn.ops at hop
    rcases List.mem_append.1 hop with hop | hop
    · rcases List.mem_append.1 hop with hop | hop
      · obtain ⟨j, hj, hop⟩ := List.mem_flatMap.1 hop
        refine ⟨j, List.mem_range.1 hj, ?_⟩
        rcases List.mem_cons.1 hop with rfl | hop
        · rfl
        · exact (primary_cloud S inp j op hop).1
      · rw [List.mem_singleton.1 hop] at h1
        exact absurd rfl h1
    · obtain ⟨j, hj, rfl⟩ := List.mem_map.1 hop
      exact ⟨j, List.mem_range.1 hj, rfl⟩
  · refine ⟨_, _, rfl, ?_, ?_⟩
    · intro op hop
      obtain ⟨j, hj, hop⟩ := List.mem_flatMap.1 hop
      rcases List.mem_cons.1 hop with rfl | hop
      · rfl
      · exact (primary_cloud S inp j op hop).2
    · intro op hop
      obtain ⟨j, hj, rfl⟩ := List.mem_map.1 hop
      rfl

/-! ## C89 -/

/-- **C89**: whatever the beam, the fields and the random numbers, at every point of a simulation (between any two
elementary operations of any time step) every cloud is in good order: live macroparticles fit in the arrays, are all
inside the chamber, have no negative size, thresholds are locked to the reference size, which is positive and not
below its initial value; the list of clouds keeps its names and the arrays their lengths. The arrays must not have been
filled and the targets of cross ionisation not over-depleted (`RunHealthy`). -/
theorem C89_invariant (S : SimCfg K) (hS : S.Ok) (steps : List (StepIn K)) (hsteps : ∀ inp ∈ steps, inp.Ok S)
    (st : SimSt K) (hinv : ∀ c ∈ st.clouds, CloudOk S.ch c.mps) (hnd : (st.clouds.map (fun c => c.name)).Nodup)
    (hh : RunHealthy S (simOps S st.clouds.length steps) st)
    (pre : List (SimOp K)) (hpre : pre <+: simOps S st.clouds.length steps) (st1 : SimSt K)
    (hok : simRun S pre st = .ok st1) :
    (∀ c ∈ st1.clouds, CloudOk S.ch c.mps) ∧
    st1.clouds.map (fun c => (c.name, c.mps.cap)) = st.clouds.map (fun c => (c.name, c.mps.cap)) := by
  have hops : ∀ op ∈ pre, OpOk S op := by
    intro op hop
    obtain ⟨inp, hi, ho⟩ := List.mem_flatMap.1 (hpre.subset hop)
    exact ops_ok S inp (hsteps inp hi) _ op ho
  obtain ⟨h1, -, -⟩ := run_spec S hS pre hops st st1 hinv hnd (fun p hp => hh p (hp.trans hpre)) hok
  exact ⟨h1.ok, h1.frame⟩

/-- **C89**, at the end of a simulation that raises no exception. -/
theorem C89_simulation (S : SimCfg K) (hS : S.Ok) (steps : List (StepIn K)) (hsteps : ∀ inp ∈ steps, inp.Ok S)
    (st : SimSt K) (hinv : ∀ c ∈ st.clouds, CloudOk S.ch c.mps) (hnd : (st.clouds.map (fun c => c.name)).Nodup)
    (hh : RunHealthy S (simOps S st.clouds.length steps) st) (st1 : SimSt K) (hok : simulate S steps st = .ok st1) :
    (∀ c ∈ st1.clouds, CloudOk S.ch c.mps) ∧
    st1.clouds.map (fun c => (c.name, c.mps.cap)) = st.clouds.map (fun c => (c.name, c.mps.cap)) := by
  rw [simulate_eq] at hok
  exact C89_invariant S hS steps hsteps st hinv hnd hh _ (List.prefix_refl _) st1 hok

/-- **C89**: the emission model of ECLOUD type with non-negative yields satisfies the hypothesis of the other C89
theorems. -/
theorem C89_ecloud_good (proc : ℕ → Impact K → K × Bool) (hill1 hill2 : List K → Except PyErr (List K))
    (ang1 ang2 : ℕ → K → K → K → K × K × K)
    (hl1 : ∀ l r, hill1 l = .ok r → r.length = l.length) (hl2 : ∀ l r, hill2 l = .ok r → r.length = l.length)
    (hp : ∀ k i, 0 ≤ i.nel → 0 ≤ (proc k i).1) : SeyGood (seyEcloudModel proc hill1 hill2 ang1 ang2) := by
  intro th imps out h
  unfold seyEcloudModel at h
  have ho := seyECLOUD_out _ _ _ _ _ hl1 hl2 _ _ h
  refine ⟨?_, ?_⟩
  · have := ho.seyOk
    rwa [show (imps.mapIdx fun k i => (i, proc k i)).map (fun e : Impact K × K × Bool => e.1) = imps by
      apply List.ext_getElem <;> simp] at this
  · intro hn
    have hb : ∀ e ∈ imps.mapIdx (fun k i => (i, proc k i)), 0 ≤ (baseReplace th e.1 e.2.1 e.2.2).nel := by
      intro e he
      obtain ⟨k, hk, rfl⟩ := List.mem_iff_getElem.1 he
      rw [List.getElem_mapIdx]
      have hk' : k < imps.length := by simpa using hk
      have h0 := hp k imps[k] (hn _ (List.getElem_mem hk'))
      unfold baseReplace
      split
      · exact h0
      · exact div_nonneg h0 (by positivity)
    refine ⟨fun e he => ?_, fun e he => ?_⟩
    · have : e.still ∈ out.replace.map Emit.still := List.mem_map.2 ⟨e, he, rfl⟩
      rw [ho.still] at this
      obtain ⟨v, hv, hve⟩ := List.mem_map.1 this
      have := congrArg (fun t => t.1) hve
      simp only [Emit.still] at this
      rw [← this]
      exact hb v hv
    · have : e.still ∈ out.new.map Emit.still := List.mem_map.2 ⟨e, he, rfl⟩
      rw [ho.newStill] at this
      have hsub : ∀ {α : Type} (l : List α) (ns : List ℕ) (a : α), a ∈ npRepeat l ns → a ∈ l := by
        intro α l
        induction l with
        | nil => intro ns a h; cases ns <;> simp [npRepeat] at h
        | cons b l ih =>
          intro ns a h
          cases ns with
          | nil => simp [npRepeat] at h
          | cons n ns =>
            simp only [npRepeat, List.mem_append, List.mem_replicate] at h
            rcases h with h | h
            · rw [h.2]; exact List.mem_cons_self
            · exact List.mem_cons_of_mem _ (ih ns a h)
      obtain ⟨v, hv, hve⟩ := List.mem_map.1 (hsub _ _ _ this)
      have := congrArg (fun t => t.1) hve
      simp only [Emit.still] at this
      rw [← this]
      exact hb v hv

/-! ## C90 -/

/-- **C90**: charge balance of a whole simulation. As long as no regeneration is due (`RunCalm`; C12 - C14 say what
regenerations do), the charge of every cloud at the end is the initial one plus what was emitted minus what hit the
wall, plus the primaries (the stochastically rounded number times the reference size at that moment), plus what the
cross ionisation reports, minus what cleaning removed. -/
theorem C90_balance (S : SimCfg K) (hS : S.Ok) (steps : List (StepIn K)) (hsteps : ∀ inp ∈ steps, inp.Ok S)
    (st : SimSt K) (hinv : ∀ c ∈ st.clouds, CloudOk S.ch c.mps) (hnd : (st.clouds.map (fun c => c.name)).Nodup)
    (hh : RunHealthy S (simOps S st.clouds.length steps) st) (hc : RunCalm S (simOps S st.clouds.length steps) st)
    (st1 : SimSt K) (hok : simulate S steps st = .ok st1) (i : ℕ) :
    st1.charge i = st.charge i + simGains S i (simOps S st.clouds.length steps) st := by
  rw [simulate_eq] at hok
  refine (run_spec S hS _ ?_ st st1 hinv hnd hh hok).2.1 hc i
  intro op hop
  obtain ⟨inp, hi, ho⟩ := List.mem_flatMap.1 hop
  exact ops_ok S inp (hsteps inp hi) _ op ho

/-- **C90**: over a whole simulation, regenerations included, the histogram of impacting electrons of every cloud and
its energy spectrum accumulate exactly the charge reported to hit the wall, and the histogram of deposited energy the
impacting energy minus the emitted one. (Without the saver, which moves the histograms to the output, C74.) -/
theorem C90_wall (S : SimCfg K) (hS : S.Ok) (steps : List (StepIn K)) (hsteps : ∀ inp ∈ steps, inp.Ok S)
    (st : SimSt K) (hinv : ∀ c ∈ st.clouds, CloudOk S.ch c.mps) (hnd : (st.clouds.map (fun c => c.name)).Nodup)
    (hh : RunHealthy S (simOps S st.clouds.length steps) st)
    (st1 : SimSt K) (hok : simulate S steps st = .ok st1) (i : ℕ) :
    (st1.hists i).tot.sum = (st.hists i).tot.sum + simWall S i (fun n => n.nelImp) (simOps S st.clouds.length steps) st ∧
    (st1.hists i).enLine.sum =
      (st.hists i).enLine.sum + simWall S i (fun n => n.nelImp) (simOps S st.clouds.length steps) st ∧
    (st1.hists i).energ.sum =
      (st.hists i).energ.sum + simWall S i (fun n => n.enImp - n.enEmit) (simOps S st.clouds.length steps) st := by
  rw [simulate_eq] at hok
  refine (run_spec S hS _ ?_ st st1 hinv hnd hh hok).2.2 i
  intro op hop
  obtain ⟨inp, hi, ho⟩ := List.mem_flatMap.1 hop
  exact ops_ok S inp (hsteps inp hi) _ op ho

/-! ## a concrete simulation: two clouds, two time steps -/

/-- a checker for `RunHealthy` without cross ionisation, and for `RunCalm` -/
def roomRun (S : SimCfg ℚ) : List (SimOp ℚ) → SimSt ℚ → Bool
  | [], st => st.clouds.all (fun c => decide (c.mps.nmp < c.mps.cap)) && st.cross.isNone
  | op :: ops, st => st.clouds.all (fun c => decide (c.mps.nmp < c.mps.cap)) && st.cross.isNone &&
    match op.apply S st with
    | .error _ => true
    | .ok st' => roomRun S ops st'

theorem roomRun_healthy (S : SimCfg ℚ) (ops : List (SimOp ℚ)) (st : SimSt ℚ) (h : roomRun S ops st = true) :
    RunHealthy S ops st := by
  have key : ∀ (st : SimSt ℚ), (st.clouds.all (fun c => decide (c.mps.nmp < c.mps.cap)) && st.cross.isNone) = true →
      st.Room ∧ st.Targets S.lg := by
    intro st h
    rw [Bool.and_eq_true, List.all_eq_true] at h
    refine ⟨fun c hc => by simpa using h.1 c hc, fun x hx => ?_⟩
    rw [hx] at h
    simp at h
  induction ops generalizing st with
  | nil =>
    intro pre hp st1 h1
    rw [List.prefix_nil.1 hp] at h1
    cases h1
    exact key st h
  | cons op ops ih =>
    intro pre hp st1 h1
    simp only [roomRun] at h
    rw [Bool.and_eq_true] at h
    cases pre with
    | nil => cases h1; exact key st h.1
    | cons o pre =>
      obtain ⟨rfl, hp'⟩ := List.cons_prefix_cons.1 hp
      simp only [simRun] at h1
      cases ha : o.apply S st with
      | error e => rw [ha] at h1; cases h1
      | ok st' =>
        rw [ha] at h1 h
        exact ih st' h.2 pre hp' st1 h1

/-- decides that a maintenance is calm when soft regenerations are switched off -/
def calmRun (S : SimCfg ℚ) : List (SimOp ℚ) → SimSt ℚ → Bool
  | [], _ => true
  | op :: ops, st =>
    (match op with
      | .maintain i newPass skipClean _ _ _ _ =>
        (match st.clouds[i]? with
          | none => true
          | some c => !(S.full i).trigger (if newPass && !skipClean then c.mps.clean else c.mps)) &&
        (S.regen i).soft.isNone && (S.regen i).async.isNone
      | _ => true) &&
    match op.apply S st with
    | .error _ => true
    | .ok st' => calmRun S ops st'

theorem calmRun_calm (S : SimCfg ℚ) (ops : List (SimOp ℚ)) (st : SimSt ℚ) (h : calmRun S ops st = true) :
    RunCalm S ops st := by
  induction ops generalizing st with
  | nil => intro pre op post he; simp at he
  | cons op ops ih =>
    intro pre o post he st1 h1
    simp only [calmRun] at h
    rw [Bool.and_eq_true] at h
    cases pre with
    | nil =>
      cases h1
      simp only [List.nil_append, List.cons.injEq] at he
      obtain ⟨rfl, -⟩ := he
      cases op with
      | maintain i newPass skipClean skipRegen d rs ra =>
        intro c hc
        dsimp only at h
        rw [hc] at h
        simp only [Bool.and_eq_true, Bool.not_eq_true', Option.isNone_iff_eq_none] at h
        refine ⟨by simpa using h.1.1.1, fun thr t ht => ?_, fun thr t ht => ?_⟩
        · rw [h.1.1.2] at ht; cases ht
        · rw [h.1.2] at ht; cases ht
      | _ => trivial
    | cons q pre =>
      simp only [List.cons_append, List.cons.injEq] at he
      obtain ⟨rfl, he⟩ := he
      simp only [simRun] at h1
      cases ha : op.apply S st with
      | error e => rw [ha] at h1; cases h1
      | ok st' =>
        rw [ha] at h1 h
        exact ih st' h.2 pre o post he st1 h1

/-- 12 slots, three live macroparticles inside the slab -/
def simCloud : MPs ℚ where
  arr := fun f => match f with
    | .x => [1, 2, -2, 0, 0, 0, 0, 0, 0, 0, 0, 0]
    | .vx => [1, -1, -2, 0, 0, 0, 0, 0, 0, 0, 0, 0]
    | .nel => [10, 1, 20, 0, 0, 0, 0, 0, 0, 0, 0, 0]
    | _ => [0, 0, 0, 0, 0, 0, 0, 0, 0, 0, 0, 0]
  nmp := 3
  ref := 4
  split := 12
  clTh := 2
  ref0 := 4
  factSplit := 3
  factClean := 1 / 2
  lifetime := true

/-- slab chamber, gas ionisation in the first cloud, full regeneration above `nr` macroparticles -/
def simExCfg (nr : ℕ) : SimCfg ℚ where
  ch := slab
  sq := fun a => |a|
  lg := id
  qe := 1
  imp := fun _ => slabCfg
  full := fun _ => { toyCfg with histN := 7, histBias := -3, outside := slab.outside, nRegen := nr, histCut := 0 }
  regen := fun _ => ⟨none, none⟩
  gas := fun i => ⟨decide (i = 0), 100, 1, 1, 1, 1 / 2, 1⟩
  photo := fun _ => .off

def simExSt : SimSt ℚ where
  clouds := [⟨0, 1, simCloud⟩, ⟨1, 2, { simCloud with nmp := 1 }⟩]
  hists := fun _ => slabHist
  cnt := fun _ => ⟨0, 0, 0, 0⟩
  cross := none

/-- free flight for one time unit; the ionisation draws fall inside -/
def simExStep (newPass : Bool) : StepIn ℚ where
  tt := 1
  dt := 1
  newPass := newPass
  skipClean := false
  skipRegen := false
  main := ⟨16, 1, 1, 1, 0, 0⟩
  secs := []
  motion := fun _ _ p => { p with x := p.x + p.vx, y := p.y + p.vy, z := p.z + p.vz }
  sey := fun _ => slabSey
  gasD := fun _ _ => ⟨1 / 4, fun _ => 1 / 4, fun _ => 1 / 4, fun _ => 1 / 4, [], 1 / 2, 1 / 2, 1 / 2⟩
  phU := fun _ => 0
  phVel := fun _ _ _ => (0, 0, 0)
  phEnds := fun _ _ => ((0, 0), (3, 0))
  sgVel := fun _ _ _ => (0, 0, 0)
  sgSeg := fun _ _ => 0
  sgR0 := fun _ _ => 0
  sgRounds := fun _ => []
  xD := fun _ _ => exXDraws
  fullD := fun _ => halfDraws
  randSoft := fun _ _ => 1 / 2
  randAsync := fun _ _ => 1 / 2

theorem simExCfg_ok (nr : ℕ) : (simExCfg nr).Ok where
  origin := (by decide +kernel : slab.outside 0 0 = false)
  hit := by
    intro o q b _ _ hb
    simp only [simExCfg, slab, Except.ok.injEq] at hb ⊢
    rw [← hb]
    split <;> simp [abs_of_pos, abs_div]
  sqrt := fun a => abs_nonneg a
  out := fun _ => rfl
  dx := fun _ => by simp [simExCfg, toyCfg]
  n := fun _ => by simp [simExCfg]
  sym := fun _ => by norm_num [simExCfg, toyCfg]
  cut0 := fun _ => le_refl _
  cut1 := fun _ => by simp [simExCfg]
  nx := fun _ => by simp [simExCfg, toyCfg]
  ny := fun _ => by simp [simExCfg, toyCfg]
  nvx := fun _ => by simp [simExCfg, toyCfg]
  nvy := fun _ => by simp [simExCfg, toyCfg]
  nvz := fun _ => by simp [simExCfg, toyCfg]
  ya := fun _ => by simp [simExCfg, toyCfg]
  cover := by
    intro i x y h
    simp only [simExCfg, slab, decide_eq_false_iff_not, not_lt] at h ⊢
    linarith

theorem slabSey_good : SeyGood slabSey :=
  C89_ecloud_good _ _ _ _ _ (by intro l r h; simp only [Except.ok.injEq] at h; rw [← h]; simp)
    (by intro l r h; simp only [Except.ok.injEq] at h; rw [← h]; simp) (fun _ i h => by dsimp only; positivity)

theorem simExStep_ok (nr : ℕ) (b : Bool) : (simExStep b).Ok (simExCfg nr) where
  dt := by simp [simExStep]
  skip := by simp [simExStep]
  sey := fun _ => slabSey_good
  gas := by
    intro i q hq
    simp only [simExStep, List.mem_singleton] at hq
    subst hq
    norm_num [simExCfg]
  gasD := by intro i k; norm_num [simExStep, InUnit]
  photo := fun _ => trivial
  phU := fun _ => le_refl _
  phEnds := by
    intro i k
    simp only [simExStep, simExCfg]
    exact ⟨by decide +kernel, by decide +kernel⟩
  fullD := by
    intro i k
    constructor <;> simp [simExStep, halfDraws, InUnit] <;> norm_num

theorem simExSt_ok : ∀ c ∈ simExSt.clouds, CloudOk slab c.mps := by
  intro c hc
  simp only [simExSt, List.mem_cons, List.not_mem_nil, or_false] at hc
  rcases hc with rfl | rfl
  · exact ⟨⟨fun f => by cases f <;> rfl, by decide⟩, by decide, by decide +kernel, by decide +kernel, by decide +kernel,
      by decide +kernel, by decide +kernel, by decide +kernel⟩
  · exact ⟨⟨fun f => by cases f <;> rfl, by decide⟩, by decide, by decide +kernel, by decide +kernel, by decide +kernel,
      by decide +kernel, by decide +kernel, by decide +kernel⟩

/-- two time steps with impacts, emission, gas ionisation and cleaning, nothing regenerated: 31 + 30 = 61 -/
theorem simEx_run : ∃ r, simulate (simExCfg 100) [simExStep false, simExStep true] simExSt = .ok r ∧
    (r.charge 0 = 61 ∧ r.charge 1 = 15 ∧ r.clouds.map (fun c : XCloud ℚ => c.mps.nmp) = [9, 2]) ∧
    (simGains (simExCfg 100) 0 (simOps (simExCfg 100) 2 [simExStep false, simExStep true]) simExSt = 30 ∧
      (r.hists 0).tot.sum = 30) := exists_ok (by decide +kernel)

/-- the same with a full regeneration in the first cloud -/
theorem simEx_run_regen : ∃ r, simulate (simExCfg 5) [simExStep false, simExStep true] simExSt = .ok r ∧
    (r.charge 0 = 61 ∧ r.clouds.map (fun c : XCloud ℚ => (c.mps.nmp, c.mps.ref)) = [(2, 61 / 2), (2, 4)]) ∧
    (r.hists 0).tot.sum = 30 := exists_ok (by decide +kernel)

/-- hypotheses of `C89_simulation`, `C90_wall` (with a regeneration) and `C90_balance` -/
example : (simExCfg 5).Ok ∧ (∀ inp ∈ [simExStep false, simExStep true], inp.Ok (simExCfg 5)) ∧
    (∀ c ∈ simExSt.clouds, CloudOk (simExCfg 5).ch c.mps) ∧ (simExSt.clouds.map (fun c => c.name)).Nodup ∧
    RunHealthy (simExCfg 5) (simOps (simExCfg 5) simExSt.clouds.length [simExStep false, simExStep true]) simExSt ∧
    ∃ r, simulate (simExCfg 5) [simExStep false, simExStep true] simExSt = .ok r :=
  ⟨simExCfg_ok 5, by
    intro inp h
    simp only [List.mem_cons, List.not_mem_nil, or_false] at h
    rcases h with rfl | rfl <;> exact simExStep_ok 5 _,
    simExSt_ok, by decide, roomRun_healthy _ _ _ (by decide +kernel), simEx_run_regen.imp fun _ h => h.1⟩

example : RunHealthy (simExCfg 100) (simOps (simExCfg 100) simExSt.clouds.length [simExStep false, simExStep true]) simExSt ∧
    RunCalm (simExCfg 100) (simOps (simExCfg 100) simExSt.clouds.length [simExStep false, simExStep true]) simExSt :=
  ⟨roomRun_healthy _ _ _ (by decide +kernel), calmRun_calm _ _ _ (by decide +kernel)⟩

/-- the conclusion of C90 for this run, obtained from the theorem -/
example (r : SimSt ℚ) (h : simulate (simExCfg 100) [simExStep false, simExStep true] simExSt = .ok r) :
    r.charge 0 = simExSt.charge 0 +
      simGains (simExCfg 100) 0 (simOps (simExCfg 100) 2 [simExStep false, simExStep true]) simExSt :=
  C90_balance _ (simExCfg_ok 100) _ (by
    intro inp h
    simp only [List.mem_cons, List.not_mem_nil, or_false] at h
    rcases h with rfl | rfl <;> exact simExStep_ok 100 _) _ simExSt_ok (by decide)
    (roomRun_healthy _ _ _ (by decide +kernel)) (calmRun_calm _ _ _ (by decide +kernel)) r h 0

/-- a state with a cross ionisation whose targets satisfy `Targets`; the operation adds charge to the products -/
example : (SimSt.mk exClouds (fun _ => slabHist) (fun _ => ⟨0, 0, 0, 0⟩) (some ⟨[(0, [exProc false])], 0, 0, 0⟩)).Targets id := by
  intro x hx q hq pr hpr
  cases hx
  simp only [List.mem_singleton] at hq
  subst hq
  simp only [List.mem_singleton] at hpr
  subst hpr
  exact ⟨by norm_num [exProc], fun e s h => exXTable_nonneg e s h⟩

example : ∃ r, (SimOp.cross (1 / 1000) (fun _ _ => exXDraws)).apply (simExCfg 100)
    ⟨exClouds, fun _ => slabHist, fun _ => ⟨0, 0, 0, 0⟩, some ⟨[(0, [exProc false])], 0, 0, 0⟩⟩ = .ok r ∧
    r.charge 1 = 8 ∧ r.charge 2 = 18 := exists_ok (by decide +kernel)

/-- two clouds, gas ionisation in the first: motion and ionisation, motion, cross ionisation, maintenance of both -/
example : ((simExStep false).ops (simExCfg 100) 2).map (fun op => (op.cloud, op.stage))
    = [(some 0, 0), (some 0, 0), (some 1, 0), (none, 1), (some 0, 2), (some 1, 2)] := by
  decide +kernel

end PyECLOUD
