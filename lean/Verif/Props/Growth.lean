import Verif.Lemmas.Growth
import Verif.Props.Emission
import Verif.Props.Yield
import Mathlib.Analysis.Complex.ExponentialBounds

/-!
# Growth of a cloud (C166)

The build-up is a competition between the yield of the surface and the losses. The number of electrons grows in a time
step at most by the largest yield of the surface, plus what the sources add; where no surface emits more electrons than
hit it, and no source is active, the number of electrons never increases.
-/

namespace PyECLOUD

set_option linter.unusedSectionVars false

section general
variable {K : Type} [Field K] [LinearOrder K] [IsStrictOrderedRing K] [FloorRing K]

/-- **C166**: with a surface that emits at most `M ≥ 1` electrons per impacting electron, after `n` time steps a cloud holds
at most `M ^ n` times the electrons it started with and those brought in by the sources. Motion, fields, random numbers,
soft and asynchronous regenerations are arbitrary. (Full regenerations are excluded, they can add up to one reference
size per cell, C12.) -/
theorem C166_growth (S : SimCfg K) (hS : S.Ok) (steps : List (StepIn K)) (hsteps : ∀ inp ∈ steps, inp.Ok S)
    (st : SimSt K) (hinv : ∀ c ∈ st.clouds, CloudOk S.ch c.mps) (hnd : (st.clouds.map (fun c => c.name)).Nodup)
    (hh : RunHealthy S (simOps S st.clouds.length steps) st) (i : ℕ) (P : Impact K → Prop) (M : K) (hM1 : 1 ≤ M)
    (hP : S.Hits i P) (hM : ∀ inp ∈ steps, YieldAtMost P M (inp.sey i))
    (hnr : RunNotRebuilt S i (simOps S st.clouds.length steps) st)
    (st1 : SimSt K) (hok : simulate S steps st = .ok st1) :
    0 ≤ simSources S i (simOps S st.clouds.length steps) st ∧
    st1.charge i ≤ M ^ steps.length * (st.charge i + simSources S i (simOps S st.clouds.length steps) st) := by
  rw [simulate_eq] at hok
  obtain ⟨h1, h2⟩ := run_growth S hS _ (by
    intro op hop
    obtain ⟨inp, hi, ho⟩ := List.mem_flatMap.1 hop
    exact ops_ok S inp (hsteps inp hi) _ op ho) st st1 hinv hnd hh hok i P M hP (yields_of_steps S steps _ i P M hM) hM1 hnr
  refine ⟨h1, h2.trans (mul_le_mul_of_nonneg_right (pow_le_pow_right₀ hM1 (countP_tracks_run S steps _ i)) ?_)⟩
  have := st.charge_nonneg hinv i
  linarith

/-- without cross ionisation there is none later -/
theorem apply_keeps_no_cross (S : SimCfg K) (op : SimOp K) (st st' : SimSt K) (h : st.cross = none)
    (hok : op.apply S st = .ok st') : st'.cross = none := by
  have hon : ∀ j f, st.onCloud j f = .ok st' → st'.cross = none := by
    intro j f hf
    obtain ⟨c, m, -, -, rfl⟩ := onCloud_spec _ _ _ _ hf
    exact h
  cases op with
  | track j step sey tt =>
    simp only [SimOp.apply, SimSt.track] at hok
    split at hok
    · cases hok
    · split at hok
      · cases hok
      · cases hok; exact h
  | gas => exact hon _ _ hok
  | rays =>
    simp only [SimOp.apply] at hok
    split at hok
    · exact hon _ _ hok
    · cases hok; exact h
  | segs =>
    simp only [SimOp.apply] at hok
    split at hok
    · exact hon _ _ hok
    · cases hok; exact h
  | cross dt d =>
    simp only [SimOp.apply, h] at hok
    cases hok; exact h
  | maintain =>
    simp only [SimOp.apply] at hok
    exact hon _ _ hok

theorem sources_zero (S : SimCfg K) (i : ℕ) (hs : S.NoSources i) (steps : List (StepIn K)) (n : ℕ)
    (ops : List (SimOp K)) (hsub : ∀ op ∈ ops, op ∈ simOps S n steps) (st : SimSt K) (hc : st.cross = none) :
    simSources S i ops st = 0 := by
  induction ops generalizing st with
  | nil => rfl
  | cons op ops ih =>
    simp only [simSources]
    cases h1 : op.apply S st with
    | error e => rfl
    | ok st1 =>
      simp only
      rw [ih (fun o ho => hsub o (List.mem_cons_of_mem _ ho)) st1 (apply_keeps_no_cross S op st st1 hc h1), add_zero]
      have hmem := hsub op List.mem_cons_self
      obtain ⟨inp, -, ho⟩ := List.mem_flatMap.1 hmem
      cases op with
      | track => rfl
      | maintain => rfl
      | cross dt d => simp [SimOp.source, SimOp.gain, hc]
      | gas j lam dt sx sy xb yb d =>
        simp only [SimOp.source, SimOp.gain]
        split
        · next e =>
          subst e
          exfalso
          unfold StepIn.ops at ho
          rcases List.mem_append.1 ho with ho | ho
          · rcases List.mem_append.1 ho with ho | ho
            · obtain ⟨k, hk, ho⟩ := List.mem_flatMap.1 ho
              rcases List.mem_cons.1 ho with ho | ho
              · cases ho
              · have hk2 := (primary_cloud S inp k _ ho).1
                simp only [SimOp.cloud, Option.some.injEq] at hk2
                subst hk2
                unfold StepIn.primaryOps at ho
                rw [if_neg (by rw [hs.1]; simp), hs.2] at ho
                simp at ho
            · have := List.mem_singleton.1 ho; cases this
          · obtain ⟨k, -, ho⟩ := List.mem_map.1 ho; cases ho
        · rfl
      | rays j lam dt u vel ends =>
        simp only [SimOp.source, SimOp.gain]
        split
        · rw [hs.2]
        · rfl
      | segs j lam dt u vel seg r0 rounds =>
        simp only [SimOp.source, SimOp.gain]
        split
        · rw [hs.2]
        · rfl

/-- **C166**: where the surface never emits more electrons than hit it, and no source is active, the number of electrons in
the cloud never increases: between any two points of the run, in the middle of time steps too. -/
theorem C166_decay (S : SimCfg K) (hS : S.Ok) (steps : List (StepIn K)) (hsteps : ∀ inp ∈ steps, inp.Ok S)
    (st : SimSt K) (hinv : ∀ c ∈ st.clouds, CloudOk S.ch c.mps) (hnd : (st.clouds.map (fun c => c.name)).Nodup)
    (hh : RunHealthy S (simOps S st.clouds.length steps) st) (i : ℕ) (P : Impact K → Prop)
    (hP : S.Hits i P) (hM : ∀ inp ∈ steps, YieldAtMost P 1 (inp.sey i))
    (hnr : RunNotRebuilt S i (simOps S st.clouds.length steps) st) (hs : S.NoSources i) (hc : st.cross = none)
    (a b : List (SimOp K)) (hab : a ++ b <+: simOps S st.clouds.length steps)
    (sta stb : SimSt K) (hoka : simRun S a st = .ok sta) (hokb : simRun S (a ++ b) st = .ok stb) :
    stb.charge i ≤ sta.charge i := by
  have hops : ∀ op ∈ simOps S st.clouds.length steps, OpOk S op := by
    intro op hop
    obtain ⟨inp, hi, ho⟩ := List.mem_flatMap.1 hop
    exact ops_ok S inp (hsteps inp hi) _ op ho
  have hpa : a <+: simOps S st.clouds.length steps := (List.prefix_append a b).trans hab
  obtain ⟨ra, -, -⟩ := run_spec S hS a (fun op ho => hops op (hpa.subset ho)) st sta hinv hnd
    (fun p hp => hh p (hp.trans hpa)) hoka
  rw [simRun_append, hoka] at hokb
  have hcr : ∀ (l : List (SimOp K)) (s s' : SimSt K), s.cross = none → simRun S l s = .ok s' → s'.cross = none := by
    intro l
    induction l with
    | nil => intro s s' h h1; cases h1; exact h
    | cons op l ih =>
      intro s s' h h1
      simp only [simRun] at h1
      cases h2 : op.apply S s with
      | error e => rw [h2] at h1; cases h1
      | ok s2 =>
        rw [h2] at h1
        exact ih s2 s' (apply_keeps_no_cross S op s s2 h h2) h1
  have hca := hcr a st sta hc hoka
  obtain ⟨-, g⟩ := run_growth S hS b (fun op ho => hops op (hab.subset (List.mem_append_right _ ho))) sta stb ra.ok
    (by rw [ra.names]; exact hnd) (by
      intro p hp st2 h2
      refine hh (a ++ p) (((List.prefix_append_right_inj a).2 hp).trans hab) st2 ?_
      rw [simRun_append, hoka]; exact h2) hokb i P 1 hP
    (fun op ho => yields_of_steps S steps _ i P 1 hM op (hab.subset (List.mem_append_right _ ho))) le_rfl (by
      intro pre op post he st2 h2
      obtain ⟨tl, htl⟩ := hab
      refine hnr (a ++ pre) op (post ++ tl) ?_ st2 (by rw [simRun_append, hoka]; exact h2)
      rw [← htl, he]; simp)
  rw [sources_zero S i hs steps st.clouds.length b (fun op ho => hab.subset (List.mem_append_right _ ho)) sta hca, one_pow,
    one_mul, add_zero] at g
  exact g

/-- **C166**: a surface of ECLOUD type whose `SEY_process` returns at most `M` times the size of the impact emits at most `M`
electrons per electron, however large macroparticles are split. -/
theorem C166_ecloud (proc : ℕ → Impact K → K × Bool) (hill1 hill2 : List K → Except PyErr (List K))
    (ang1 ang2 : ℕ → K → K → K → K × K × K)
    (hl1 : ∀ l r, hill1 l = .ok r → r.length = l.length) (hl2 : ∀ l r, hill2 l = .ok r → r.length = l.length)
    (P : Impact K → Prop) (M : K) (hp : ∀ k i, 0 ≤ i.nel → P i → (proc k i).1 ≤ M * i.nel) :
    YieldAtMost P M (seyEcloudModel proc hill1 hill2 ang1 ang2) := by
  intro th imps out h hi
  have hq := C18_ecloud_model proc hill1 hill2 ang1 ang2 th hl1 hl2 imps out h
  rw [← hq.charge]
  unfold seyEcloudModel at h
  rw [(seyECLOUD_out _ _ _ _ _ hl1 hl2 _ _ h).emit, ← List.sum_map_mul_left]
  rw [show (imps.mapIdx (fun k i => (i, proc k i))).map (fun e : Impact K × K × Bool => e.2.1) =
    imps.mapIdx (fun k i => (proc k i).1) by apply List.ext_getElem <;> simp]
  clear h hq
  have : ∀ (q : ℕ → Impact K → K × Bool), (∀ k i, 0 ≤ i.nel → P i → (q k i).1 ≤ M * i.nel) →
      (imps.mapIdx (fun k i => (q k i).1)).sum ≤ (imps.map (fun i => M * i.nel)).sum := by
    induction imps with
    | nil => intro q _; simp
    | cons a l ih =>
      intro q hq
      rw [List.mapIdx_cons, List.map_cons, List.sum_cons, List.sum_cons]
      have h1 := hi a List.mem_cons_self
      exact add_le_add (hq 0 a h1.1 h1.2) (ih (fun i h => hi i (List.mem_cons_of_mem _ h)) (fun k => q (k + 1))
        (fun k i => hq (k + 1) i))
  exact this proc hp

/-- **C166**: an absorber emits nothing. -/
theorem C166_absorber (P : Impact K → Prop) : YieldAtMost P (0 : K) (fun _ imps => .ok (seyAbsorber imps)) := by
  intro th imps out h _
  cases h
  have h0 : (seyAbsorber imps).nelEmit.sum = 0 := by
    have : ∀ l : List (Impact K), (l.map (fun i : Impact K => 0 * i.nel)).sum = 0 := by
      intro l; induction l with
      | nil => rfl
      | cons a l ih => simp
    simp [seyAbsorber]
  rw [← (absorber_seyOk imps).charge, h0, zero_mul]

/-- **C166**: a Furman-Pivi surface emits at most `M_cut` electrons per impacting electron. -/
theorem C166_furman_pivi (c : FPCfg) (g : FPGens K) (hg : g.Ok) (yields : Impact K → K × K) (u : ℕ → K)
    (first : ℕ → ℕ) (draws : ℕ → ℕ → ℕ) (hc : 1 ≤ c.mCut) (P : Impact K → Prop) :
    YieldAtMost P (c.mCut : K) (fun _ imps => (seyFPModel c g yields u first draws imps).map (fun r => r.1)) := by
  intro th imps out h hi
  simp only [Except.map] at h
  split at h
  · cases h
  · next r hr =>
    cases h
    obtain ⟨out, codes⟩ := r
    rw [← (C18_furman_pivi_model c g hg yields u first draws imps out codes hr).charge]
    obtain ⟨ms, h1, h2, h3, h4, -⟩ := C31_events c g hg yields u first draws imps out codes hr
    rw [h4, ← List.sum_map_mul_left]
    have hms : ∀ (k : ℕ) (i : Impact K) (m : ℕ), imps[k]? = some i → ms[k]? = some m → m ≤ c.mCut := by
      intro k i m a b
      have hk : k < codes.length := by rw [h2]; exact (List.getElem?_eq_some_iff.1 a).1
      rcases h3 k i m _ a b (List.getElem?_eq_getElem hk) with h | h | h | h
      · omega
      · omega
      · exact h.2.2.1
      · omega
    have h6 : (imps.map (fun i => (c.mCut : K) * i.nel)) = (imps.zip ms).map (fun q => (c.mCut : K) * q.1.nel) := by
      have e := List.map_fst_zip (l₁ := imps) (l₂ := ms) (by omega)
      conv_lhs => rw [← e, List.map_map]
      rfl
    rw [h6]
    refine List.sum_le_sum ?_
    intro q hq
    obtain ⟨k, hk, rfl⟩ := List.mem_iff_getElem.1 hq
    have hk1 : k < imps.length := by simp at hk; omega
    have hk2 : k < ms.length := by omega
    rw [List.getElem_zip]
    have hm := hms k _ _ (List.getElem?_eq_getElem hk1) (List.getElem?_eq_getElem hk2)
    rw [mul_comm]
    refine mul_le_mul_of_nonneg_right (by exact_mod_cast hm) (hi _ (List.getElem_mem hk1)).1

end general

section real
open Real

/-- **C166**: if the normals of the chamber have at most unit length, all impacts have a physical energy and angle. -/
theorem C166_physical (S : SimCfg ℝ) (i : ℕ) (hsq : S.sq = Real.sqrt) (hke : 0 ≤ (S.imp i).ke)
    (hn : ∀ o q b, S.ch.hit o q = .ok b → b.nx ^ 2 + b.ny ^ 2 ≤ 1) : S.Hits i Impact.Physical := by
  intro o q b hb p
  have hb := hn o q b hb
  unfold mkImpact Impact.Physical
  rw [hsq]
  dsimp only
  set w := p .vx * p .vx + p .vy * p .vy + p .vz * p .vz with hw
  have hw0 : 0 ≤ w := by nlinarith [mul_self_nonneg (p .vx), mul_self_nonneg (p .vy), mul_self_nonneg (p .vz)]
  refine ⟨by positivity, abs_nonneg _, ?_⟩
  rw [abs_div, abs_of_nonneg (sqrt_nonneg w)]
  refine div_le_one_of_le₀ ?_ (sqrt_nonneg _)
  refine Real.le_sqrt_of_sq_le ?_
  rw [sq_abs, hw]
  nlinarith [sq_nonneg (p .vx * b.ny - p .vy * b.nx), mul_self_nonneg (p .vz), mul_self_nonneg (p .vx),
    mul_self_nonneg (p .vy), mul_nonneg (sub_nonneg.2 hb) (add_nonneg (mul_self_nonneg (p .vx)) (mul_self_nonneg (p .vy)))]

theorem yieldTrue_le (p : YieldPar) (hp : p.Valid) (e cth : ℝ) (he : 0 ≤ e) (h0 : 0 ≤ cth) (hc : cth ≤ 1) :
    yieldTrue p e cth ≤ p.delMax * exp 0.5 := by
  refine (yieldTrue_bounds p hp e cth he hc).2.trans ?_
  have hd := hp.delMax
  split
  · refine mul_le_mul_of_nonneg_left (exp_le_exp.2 (by nlinarith)) hd.le
  · have : 1 ≤ exp (0.5 : ℝ) := one_le_exp (by norm_num)
    nlinarith

/-- **C166**: the ECLOUD yield and its variants. For physical impacts the ECLOUD and the cosine models emit at most
`delta_max e^(1/2) + R0` electrons per electron (the factor is the one of grazing incidence), the flat model the larger of
the two, the accurate low energy model the larger of 1 and `delta_max e^(1/2) / (1 - R0)`. -/
theorem C166_models (p : YieldPar) (hp : p.Valid) (u : ℕ → ℝ) (k : ℕ) (i : Impact ℝ) (hn : 0 ≤ i.nel) (hi : i.Physical) :
    (seyProcess (yieldECLOUD p i.en i.cth) i.nel (u k)).1 ≤ (p.delMax * exp 0.5 + p.r0) * i.nel ∧
    (seyProcess (yieldCos p i.en i.cth) i.nel (u k)).1 ≤ (p.delMax * exp 0.5 + p.r0) * i.nel ∧
    (seyProcess (yieldFlat p i.en i.cth) i.nel (u k)).1 ≤ max (p.delMax * exp 0.5) p.r0 * i.nel ∧
    (p.r0 < 1 → (accProcess p i.en i.cth i.nel (u k)).1 ≤ max 1 (p.delMax * exp 0.5 / (1 - p.r0)) * i.nel) := by
  obtain ⟨he, hc0, hc⟩ := hi
  have ht := yieldTrue_le p hp i.en i.cth he hc0 hc
  have ht0 := (yieldTrue_bounds p hp i.en i.cth he hc).1
  obtain ⟨hr0, hr⟩ := yieldRefl_bounds p hp i.en he
  refine ⟨?_, ?_, ?_, ?_⟩
  · simp only [seyProcess, yieldECLOUD]
    rw [mul_comm]
    exact mul_le_mul_of_nonneg_right (add_le_add ht hr) hn
  · simp only [seyProcess, yieldCos]
    rw [mul_comm]
    refine mul_le_mul_of_nonneg_right (add_le_add ht ?_) hn
    unfold cosRefl
    split
    · exact mul_le_of_le_one_right hp.r0 (cos_sq_le_one _)
    · exact hp.r0
  · simp only [seyProcess, yieldFlat]
    rw [mul_comm]
    refine mul_le_mul_of_nonneg_right ?_ hn
    split
    · exact le_max_right _ _
    · exact ht.trans (le_max_left _ _)
  · intro h1
    unfold accProcess
    dsimp only
    split
    · have := le_max_left (1 : ℝ) (p.delMax * exp 0.5 / (1 - p.r0))
      nlinarith
    · rw [mul_comm]
      refine mul_le_mul_of_nonneg_right (le_trans ?_ (le_max_right _ _)) hn
      have hd : 0 ≤ p.delMax * exp 0.5 := mul_nonneg hp.delMax.le (exp_pos _).le
      exact div_le_div₀ hd ht (by linarith) (by linarith)

/-- **C166**: no multipacting below threshold. In a simulation with ECLOUD type secondary emission, `delta_max e^(1/2) + R0 ≤ 1`
and no sources, the number of electrons of the cloud never increases. -/
theorem C166_no_multipacting (S : SimCfg ℝ) (hS : S.Ok) (steps : List (StepIn ℝ)) (hsteps : ∀ inp ∈ steps, inp.Ok S)
    (st : SimSt ℝ) (hinv : ∀ c ∈ st.clouds, CloudOk S.ch c.mps) (hnd : (st.clouds.map (fun c => c.name)).Nodup)
    (hh : RunHealthy S (simOps S st.clouds.length steps) st) (i : ℕ)
    (hsq : S.sq = Real.sqrt) (hke : 0 ≤ (S.imp i).ke)
    (hn : ∀ o q b, S.ch.hit o q = .ok b → b.nx ^ 2 + b.ny ^ 2 ≤ 1)
    (p : YieldPar) (hp : p.Valid) (hthr : p.delMax * exp 0.5 + p.r0 ≤ 1)
    (hsey : ∀ inp ∈ steps, ∃ (u : ℕ → ℝ) (hill1 hill2 : List ℝ → Except PyErr (List ℝ)) (ang1 ang2 : ℕ → ℝ → ℝ → ℝ → ℝ × ℝ × ℝ),
      (∀ l r, hill1 l = .ok r → r.length = l.length) ∧ (∀ l r, hill2 l = .ok r → r.length = l.length) ∧
      inp.sey i = seyEcloudModel (fun k m => seyProcess (yieldECLOUD p m.en m.cth) m.nel (u k)) hill1 hill2 ang1 ang2)
    (hnr : RunNotRebuilt S i (simOps S st.clouds.length steps) st) (hs : S.NoSources i) (hc : st.cross = none)
    (a b : List (SimOp ℝ)) (hab : a ++ b <+: simOps S st.clouds.length steps)
    (sta stb : SimSt ℝ) (hoka : simRun S a st = .ok sta) (hokb : simRun S (a ++ b) st = .ok stb) :
    stb.charge i ≤ sta.charge i := by
  refine C166_decay S hS steps hsteps st hinv hnd hh i Impact.Physical (C166_physical S i hsq hke hn) ?_ hnr hs hc a b hab sta
    stb hoka hokb
  intro inp hi
  obtain ⟨u, h1, h2, a1, a2, l1, l2, e⟩ := hsey inp hi
  rw [e]
  refine C166_ecloud _ _ _ _ _ l1 l2 _ _ (fun k m hm hP => ?_)
  refine (C166_models p hp u k m hm hP).1.trans ?_
  exact mul_le_mul_of_nonneg_right hthr hm

end real

/-! ## examples -/

/-- decides that no full regeneration is due along a run -/
def notRebuilt (S : SimCfg ℚ) (i : ℕ) : List (SimOp ℚ) → SimSt ℚ → Bool
  | [], _ => true
  | op :: ops, st =>
    (match op with
      | .maintain j newPass skipClean _ _ _ _ => decide (j ≠ i) ||
        (match st.clouds[i]? with
          | none => true
          | some c => !(S.full i).trigger (if newPass && !skipClean then c.mps.clean else c.mps))
      | _ => true) &&
    match op.apply S st with
    | .error _ => true
    | .ok st' => notRebuilt S i ops st'

theorem notRebuilt_spec (S : SimCfg ℚ) (i : ℕ) (ops : List (SimOp ℚ)) (st : SimSt ℚ) (h : notRebuilt S i ops st = true) :
    RunNotRebuilt S i ops st := by
  induction ops generalizing st with
  | nil => intro pre op post he; simp at he
  | cons op ops ih =>
    intro pre o post he st1 h1
    simp only [notRebuilt] at h
    rw [Bool.and_eq_true] at h
    cases pre with
    | nil =>
      cases h1
      simp only [List.nil_append, List.cons.injEq] at he
      obtain ⟨rfl, -⟩ := he
      cases op with
      | maintain j newPass skipClean skipRegen d rs ra =>
        rintro rfl c hc
        have h := h.1
        dsimp only at h
        rw [hc] at h
        simpa using h
      | _ => trivial
    | cons q pre =>
      simp only [List.cons_append, List.cons.injEq] at he
      obtain ⟨rfl, he⟩ := he
      simp only [simRun] at h1
      cases ha : op.apply S st with
      | error e => rw [ha] at h1; cases h1
      | ok st' =>
        rw [ha] at h1 h
        exact ih st' h.2 pre o post he st1 h1

theorem slabSey_yield : YieldAtMost (fun _ => True) (3 / 2 : ℚ) slabSey :=
  C166_ecloud _ _ _ _ _ (by intro l r h; simp only [Except.ok.injEq] at h; rw [← h]; simp)
    (by intro l r h; simp only [Except.ok.injEq] at h; rw [← h]; simp) _ _ (fun _ i _ _ => by simp only; linarith)

/-- the hypotheses of `C166_growth` for a run of two time steps in which electrons hit the wall, are emitted with yield 3/2
and created by gas ionisation; its conclusion: the final charge 61 is at most (3/2)² (31 + sources) -/
example (r : SimSt ℚ) (h : simulate (simExCfg 100) [simExStep false, simExStep true] simExSt = .ok r) :
    r.charge 0 ≤ (3 / 2) ^ 2 * (simExSt.charge 0 +
      simSources (simExCfg 100) 0 (simOps (simExCfg 100) 2 [simExStep false, simExStep true]) simExSt) :=
  (C166_growth _ (simExCfg_ok 100) [simExStep false, simExStep true] (by
    intro inp h
    simp only [List.mem_cons, List.not_mem_nil, or_false] at h
    rcases h with rfl | rfl <;> exact simExStep_ok 100 _) _ simExSt_ok (by decide)
    (roomRun_healthy _ _ _ (by decide +kernel)) 0 (fun _ => True) (3 / 2) (by norm_num) (fun _ _ _ _ _ => trivial) (by
      intro inp h
      simp only [List.mem_cons, List.not_mem_nil, or_false] at h
      rcases h with rfl | rfl <;> exact slabSey_yield) (notRebuilt_spec _ _ _ _ (by decide +kernel)) r h).2

/-- in this run the sources bring 16 electrons, the yield the others -/
example : ∃ r, simulate (simExCfg 100) [simExStep false, simExStep true] simExSt = .ok r ∧ r.charge 0 = 61 ∧
    simExSt.charge 0 = 31 ∧
    simSources (simExCfg 100) 0 (simOps (simExCfg 100) 2 [simExStep false, simExStep true]) simExSt = 16 :=
  exists_ok (by decide +kernel)

/-- an absorbing surface -/
def simAbsStep (newPass : Bool) : StepIn ℚ := { simExStep newPass with sey := fun _ _ imps => .ok (seyAbsorber imps) }

theorem simAbsStep_ok (nr : ℕ) (b : Bool) : (simAbsStep b).Ok (simExCfg nr) where
  dt := (simExStep_ok nr b).dt
  skip := (simExStep_ok nr b).skip
  sey := by
    intro i th imps out h
    cases h
    refine ⟨absorber_seyOk imps, fun _ => ⟨fun e he => ?_, fun e he => ?_⟩⟩
    · simp only [seyAbsorber, List.mem_map] at he
      obtain ⟨a, -, rfl⟩ := he
      simp [Emit.ofImpact]
    · simp [seyAbsorber] at he
  gas := (simExStep_ok nr b).gas
  gasD := (simExStep_ok nr b).gasD
  photo := (simExStep_ok nr b).photo
  phU := (simExStep_ok nr b).phU
  phEnds := (simExStep_ok nr b).phEnds
  fullD := (simExStep_ok nr b).fullD

/-- the hypotheses of `C166_decay` for the second cloud, which has no sources, at an absorbing wall -/
example (a b : List (SimOp ℚ)) (hab : a ++ b <+: simOps (simExCfg 100) 2 [simAbsStep false, simAbsStep true])
    (sta stb : SimSt ℚ) (hoka : simRun (simExCfg 100) a simExSt = .ok sta)
    (hokb : simRun (simExCfg 100) (a ++ b) simExSt = .ok stb) : stb.charge 1 ≤ sta.charge 1 :=
  C166_decay _ (simExCfg_ok 100) [simAbsStep false, simAbsStep true] (by
    intro inp h
    simp only [List.mem_cons, List.not_mem_nil, or_false] at h
    rcases h with rfl | rfl <;> exact simAbsStep_ok 100 _) _ simExSt_ok (by decide)
    (roomRun_healthy _ _ _ (by decide +kernel)) 1 (fun _ => True) (fun _ _ _ _ _ => trivial) (by
      intro inp h th imps out ho hi
      have h2 := hi
      simp only [List.mem_cons, List.not_mem_nil, or_false] at h
      have hs : inp.sey 1 = fun _ imps => .ok (seyAbsorber imps) := by rcases h with rfl | rfl <;> rfl
      rw [hs] at ho
      refine (C166_absorber (fun _ => True) th imps out ho hi).trans ?_
      rw [zero_mul, one_mul]
      exact List.sum_nonneg (by simpa using fun i h => (hi i h).1))
    (notRebuilt_spec _ _ _ _ (by decide +kernel)) ⟨rfl, rfl⟩ rfl a b hab sta stb hoka hokb

/-- yields below the threshold exist: `delta_max = 1/4`, `R0 = 1/4` -/
example : ∃ p : YieldPar, p.Valid ∧ p.delMax * Real.exp 0.5 + p.r0 ≤ 1 := by
  refine ⟨⟨332, 1 / 4, 1 / 4, 150, 1.35, true, true⟩, ⟨by norm_num, by norm_num, by norm_num, by norm_num, by norm_num⟩, ?_⟩
  have h1 : Real.exp 0.5 ≤ Real.exp 1 := Real.exp_le_exp.2 (by norm_num)
  have h2 := Real.exp_one_lt_d9
  dsimp only
  linarith

end PyECLOUD
