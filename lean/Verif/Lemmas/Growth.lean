import Verif.Spec.Growth
import Verif.Props.SimStep

/-! # Lemmas on the growth of a cloud -/

namespace PyECLOUD

set_option linter.unusedSectionVars false

variable {K : Type} [Field K] [LinearOrder K] [IsStrictOrderedRing K] [FloorRing K]

theorem totalCharge_nonneg (l : List (Particle K)) (h : ∀ p ∈ l, 0 ≤ p .nel) : 0 ≤ totalCharge l :=
  List.sum_nonneg (by simpa using fun p hp => h p hp)

theorem clean_charge_le (ch : Chamber K) (m : MPs K) (h : CloudOk ch m) : totalCharge m.clean.live ≤ totalCharge m.live := by
  rw [clean_live _ h.wf, filter_not_sum]
  have := totalCharge_nonneg (m.live.filter (fun p => decide (p .nel < m.clTh)))
    (fun p hp => h.nel p (List.mem_filter.1 hp).1)
  linarith

theorem softRegen_charge_le (ch : Chamber K) (m : MPs K) (h : CloudOk ch m) (hz : m.ZeroTail) (t : ℕ) (r : ℕ → K) :
    totalCharge (m.softRegen t r).live ≤ totalCharge m.live := by
  by_cases ht : t < m.nmp
  · rw [softRegen_live m h.wf t r ht, totalCharge_scale, ← charge_live_zeroTail m h.wf hz]
    set q := totalCharge (maskSel m.live (softMask m t r))
    by_cases h0 : q = 0
    · rw [h0, zero_mul]
      exact totalCharge_nonneg _ h.nel
    · rw [mul_div_cancel₀ _ h0]
  · unfold MPs.softRegen
    rw [if_neg ht]

theorem checkSoft_charge_le (ch : Chamber K) (m : MPs K) (h : CloudOk ch m) (hz : m.ZeroTail) (cfg : RegenCfg) (r : ℕ → K) :
    totalCharge (m.checkSoft cfg r).live ≤ totalCharge m.live :=
  checkSoft_cases m cfg r (fun s => totalCharge s.live ≤ totalCharge m.live) le_rfl
    (fun _ t _ _ => softRegen_charge_le ch m h hz t r)

theorem checkAsync_charge_le (ch : Chamber K) (m : MPs K) (h : CloudOk ch m) (cfg : RegenCfg) (r : ℕ → K) :
    totalCharge (m.checkAsync cfg r).live ≤ totalCharge m.live :=
  checkAsync_cases m cfg r (fun s => totalCharge s.live ≤ totalCharge m.live) le_rfl (clean_charge_le ch m h)
    (fun t => (softRegen_charge_le ch _ (clean_ok ch m h) (clean_zeroTail m h.wf) t r).trans (clean_charge_le ch m h))

theorem maintenance_charge_le (ch : Chamber K) (m m' : MPs K) (h : CloudOk ch m)
    (newPass skipClean skipRegen : Bool) (hskip : skipClean = true → skipRegen = true) (full : FullCfg K) (cfg : RegenCfg)
    (fuel : ℕ) (d : FullDraws K) (rs ra : ℕ → K)
    (ht : full.trigger (if newPass && !skipClean then m.clean else m) = false)
    (hok : m.maintenance newPass skipClean skipRegen full cfg fuel d rs ra = .ok m') :
    totalCharge m'.live ≤ totalCharge m.live := by
  unfold MPs.maintenance at hok
  dsimp only at hok
  rw [checkRegen_not_trigger _ _ _ _ ht] at hok
  have hc := clean_ok ch m h
  have hle := clean_charge_le ch m h
  by_cases hb : (newPass && !skipRegen) = true
  · have e1 : (newPass && !skipClean) = true := by
      cases hs : skipClean
      · cases newPass <;> simp_all
      · rw [hskip hs] at hb; simp at hb
    simp only [hb, e1, if_true] at hok
    cases hok
    have hz := clean_zeroTail m h.wf
    have h3 := checkSoft_ok ch _ hc hz cfg rs
    exact (checkAsync_charge_le ch _ h3.1 cfg ra).trans ((checkSoft_charge_le ch _ hc hz cfg rs).trans hle)
  · have hb' : (newPass && !skipRegen) = false := by simpa using hb
    simp only [hb', Bool.false_eq_true, if_false] at hok
    cases hok
    by_cases hcl : (newPass && !skipClean) = true
    · simp only [hcl, if_true]
      exact (checkAsync_charge_le ch _ hc cfg ra).trans hle
    · have hcl' : (newPass && !skipClean) = false := by simpa using hcl
      simp only [hcl', Bool.false_eq_true, if_false]
      exact checkAsync_charge_le ch m h cfg ra

/-- impacts: the emitted charge is at most `M` times the impacting one, which is at most the charge of the cloud -/
theorem impact_growth (sq : K → K) (c : ImpCfg K) (ch : Chamber K)
    (sey : K → List (Impact K) → Except PyErr (SeyOut K)) (hsey : SeyGood sey) (s : MPs K) (hwf : s.WF)
    (hroom : s.nmp < s.cap) (hn : ∀ p ∈ s.live, 0 ≤ p .nel) (old : List (K × K × K)) (tt : K) (h : ImpHist K)
    (s' : MPs K) (h' : ImpHist K) (n : ImpCount K) (P : Impact K → Prop) (M : K)
    (hP : ∀ o q b, ch.hit o q = .ok b → ∀ p : Particle K, P (mkImpact sq c.ke p b)) (hM : YieldAtMost P M sey)
    (hok : impactStep sq c ch sey s old tt h = .ok (s', h', n)) :
    n.nelEmit ≤ M * n.nelImp ∧ 0 ≤ n.nelImp ∧ n.nelImp ≤ totalCharge s.live := by
  have hl : ∀ imps out, sey s.split imps = .ok out → out.replace.length = imps.length :=
    fun imps out ho => (hsey _ imps out ho).1.replace.length_eq.symm
  have hb := C18_charge_balance sq c ch sey s hwf hroom old tt h s' h' n (fun imps out ho => (hsey _ imps out ho).1) hok
  have hge : 0 ≤ totalCharge (s.live.filter (fun p => ch.outside (p .x) (p .y))) :=
    totalCharge_nonneg _ (fun p hp => hn p (List.mem_filter.1 hp).1)
  have hle : totalCharge (s.live.filter (fun p => ch.outside (p .x) (p .y))) ≤ totalCharge s.live := by
    unfold totalCharge
    refine List.Sublist.sum_le_sum (List.Sublist.map _ List.filter_sublist) ?_
    intro a ha
    obtain ⟨p, hp, rfl⟩ := List.mem_map.1 ha
    exact hn p hp
  refine ⟨?_, by rw [hb.2]; exact hge, by rw [hb.2]; exact hle⟩
  rcases impactStep_cases sq c ch sey s hwf hroom old tt h s' h' n hl hok with ⟨-, rfl, rfl, rfl⟩ | ⟨hne, -, hits, imps, out, r⟩
  · simp
  · obtain ⟨hS, -⟩ := hsey _ imps out r.sey
    have hn1 : n.nelImp = (imps.map (fun i => i.nel)).sum := by rw [r.count]
    have hn2 : n.nelEmit = out.nelEmit.sum := by rw [r.count]
    rw [hn1, hn2, hS.charge]
    refine hM _ _ _ r.sey ?_
    intro i hi
    rw [r.imps] at hi
    obtain ⟨q, hq, rfl⟩ := List.mem_map.1 hi
    obtain ⟨m1, m2⟩ := List.of_mem_zip hq
    refine ⟨hn _ (List.mem_filter.1 m1).1, ?_⟩
    obtain ⟨k, hk, hke⟩ := List.mem_iff_getElem.1 m2
    have := r.hits.get (i := k) (by rw [r.hits.length_eq]; exact hk) hk
    simp only [List.get_eq_getElem] at this
    rw [hke] at this
    exact hP _ _ _ this q.1

theorem SimSt.charge_nonneg {ch : Chamber K} (st : SimSt K) (h : ∀ c ∈ st.clouds, CloudOk ch c.mps) (i : ℕ) :
    0 ≤ st.charge i := by
  unfold SimSt.charge
  split
  · next c hc => exact totalCharge_nonneg _ (h c (List.mem_of_getElem? hc)).nel
  · exact le_rfl

/-- the tracking operations of cloud `j` -/
def SimOp.tracks (j : ℕ) : SimOp K → Bool
  | .track i _ _ _ => decide (i = j)
  | _ => false

/-- the emission model of a tracking operation of cloud `j` emits at most `M` -/
def SimOp.Yields (P : Impact K → Prop) (M : K) (j : ℕ) : SimOp K → Prop
  | .track i _ sey _ => i = j → YieldAtMost P M sey
  | _ => True

theorem roundedCount_nonneg' (q u : K) (hq : 0 ≤ q) (hu : 0 ≤ u) : 0 ≤ roundedCount q u := by
  unfold roundedCount
  have : 0 ≤ ⌊q⌋ := Int.floor_nonneg.2 hq
  split <;> omega

theorem op_growth (S : SimCfg K) (hS : S.Ok) (op : SimOp K) (hop : OpOk S op) (st st' : SimSt K)
    (hinv : ∀ c ∈ st.clouds, CloudOk S.ch c.mps) (hnd : (st.clouds.map (fun c => c.name)).Nodup) (hroom : st.Room)
    (htgt : st.Targets S.lg) (hok : op.apply S st = .ok st') (j : ℕ) (P : Impact K → Prop) (M : K)
    (hP : S.Hits j P) (hM : op.Yields P M j) (hM1 : 1 ≤ M) (hnr : op.NotRebuilt S j st) :
    0 ≤ op.source S j st st' ∧
    st'.charge j ≤ (if op.tracks j then M else 1) * st.charge j + op.source S j st st' := by
  have hspec := apply_spec S hS op hop st st' hinv hnd hroom htgt hok
  have h0 := st.charge_nonneg hinv j
  have href : 0 ≤ st.refSize j := by
    unfold SimSt.refSize
    split
    · next c hc => exact (hinv c (List.mem_of_getElem? hc)).refpos.le
    · exact zero_le_one
  cases op with
  | track i step sey tt =>
    refine ⟨le_rfl, ?_⟩
    simp only [SimOp.source, SimOp.tracks, add_zero]
    have hc' := hspec.2 trivial j
    simp only [SimOp.gain] at hc'
    by_cases e : i = j
    · subst e
      rw [if_pos rfl] at hc'
      simp only [decide_true, if_true]
      simp only [SimOp.apply, SimSt.track] at hok
      split at hok
      · cases hok
      · next c hc =>
        split at hok
        · cases hok
        · next m h n hi =>
          cases hok
          have hmem := List.mem_of_getElem? hc
          have hco := hinv c hmem
          have hw := push_WF c.mps hco.wf step
          have hcap := push_cap c.mps hco.wf step
          have hr : (c.mps.push step).nmp < (c.mps.push step).cap := by rw [push_nmp, hcap]; exact hroom c hmem
          have hnel : (c.mps.push step).live.map (fun p => p .nel) = c.mps.live.map (fun p => p .nel) := push_nel _ _
          have hn : ∀ p ∈ (c.mps.push step).live, 0 ≤ p .nel := by
            intro p hp
            have : p .nel ∈ (c.mps.push step).live.map (fun p => p .nel) := List.mem_map.2 ⟨p, hp, rfl⟩
            rw [hnel] at this
            obtain ⟨q, hq, hqe⟩ := List.mem_map.1 this
            rw [← hqe]
            exact hco.nel q hq
          obtain ⟨g1, g2, g3⟩ := impact_growth S.sq (S.imp i) S.ch sey hop _ hw hr hn _ tt _ m h n P M hP (hM rfl) hi
          have hq : totalCharge (c.mps.push step).live = st.charge i := by
            unfold SimSt.charge
            rw [hc]
            unfold totalCharge
            rw [hnel]
          rw [hq] at g3
          rw [hc']
          simp only [Function.update_self]
          nlinarith
    · rw [if_neg e, add_zero] at hc'
      simp only [e, decide_false, Bool.false_eq_true, if_false, one_mul]
      exact hc'.le
  | gas i lam dt sx sy xb yb d =>
    have hc' := hspec.2 trivial j
    refine ⟨?_, ?_⟩
    · simp only [SimOp.source, SimOp.gain]
      split
      · next e =>
        subst e
        refine mul_nonneg ?_ href
        exact_mod_cast roundedCount_nonneg' _ _ (div_nonneg hop.1 href) hop.2.1
      · exact le_rfl
    · simp only [SimOp.tracks, Bool.false_eq_true, if_false, one_mul]
      exact hc'.le
  | rays i lam dt u vel ends =>
    have hc' := hspec.2 trivial j
    refine ⟨?_, ?_⟩
    · simp only [SimOp.source, SimOp.gain]
      split
      · next e =>
        subst e
        have h1 := hop.1
        split
        · next kc mean he =>
          rw [he] at h1
          refine mul_nonneg ?_ href
          exact_mod_cast roundedCount_nonneg' _ _ (div_nonneg h1 href) hop.2.1
        · exact le_rfl
      · exact le_rfl
    · simp only [SimOp.tracks, Bool.false_eq_true, if_false, one_mul]
      exact hc'.le
  | segs i lam dt u vel seg r0 rounds =>
    have hc' := hspec.2 trivial j
    refine ⟨?_, ?_⟩
    · simp only [SimOp.source, SimOp.gain]
      split
      · next e =>
        subst e
        have h1 := hop.1
        split
        · next kc mean l cdf he =>
          rw [he] at h1
          refine mul_nonneg ?_ href
          exact_mod_cast roundedCount_nonneg' _ _ (div_nonneg h1 href) hop.2
        · exact le_rfl
      · exact le_rfl
    · simp only [SimOp.tracks, Bool.false_eq_true, if_false, one_mul]
      exact hc'.le
  | cross dt d =>
    have hc' := hspec.2 trivial j
    refine ⟨?_, ?_⟩
    · simp only [SimOp.source]
      simp only [SimOp.apply] at hok
      split at hok
      · next hx => cases hok; simp [SimOp.gain, hx]
      · next x hx =>
        split at hok
        · cases hok
        · next x' cs hg =>
          cases hok
          have hsane : XSane S.sq S.lg dt st.clouds :=
            ⟨hS.sqrt, hop, fun c hc => (hinv c hc).wf, hroom, fun c hc => (hinv c hc).nel, fun c hc => (hinv c hc).refpos⟩
          obtain ⟨h1, -⟩ := C46_step x x' S.sq S.lg S.qe dt st.clouds cs d hsane (fun q hq pr hpr => htgt x hx q hq pr hpr) hnd hg
          simp only [SimOp.gain, hx]
          cases hcl : st.clouds[j]? with
          | none => exact le_rfl
          | some c =>
            have hj := (List.getElem?_eq_some_iff.1 hcl)
            have hj1 := hj.1
            have := (List.forall₂_iff_get.1 h1).2 j hj1 (by rw [← h1.length_eq]; exact hj1)
            simp only [List.get_eq_getElem] at this
            rw [hj.2] at this
            obtain ⟨-, -, -, -, new, -, a6, -, a8, -⟩ := this
            simp only
            rw [a8]
            have := totalCharge_nonneg new (fun p hp => (a6 p hp).2.1)
            linarith
    · simp only [SimOp.tracks, Bool.false_eq_true, if_false, one_mul]
      exact hc'.le
  | maintain i newPass skipClean skipRegen d rs ra =>
    refine ⟨le_rfl, ?_⟩
    simp only [SimOp.source, SimOp.tracks, add_zero, Bool.false_eq_true, if_false, one_mul]
    simp only [SimOp.apply] at hok
    obtain ⟨c, m, hc, hm, rfl⟩ := onCloud_spec _ _ _ _ hok
    rw [put_charge st i c hc]
    by_cases e : i = j
    · subst e
      rw [if_pos rfl]
      have := maintenance_charge_le S.ch c.mps m (hinv c (List.mem_of_getElem? hc)) newPass skipClean skipRegen hop.1 _ _ _
        d rs ra (hnr rfl c hc) hm
      unfold SimSt.charge
      rw [hc]
      exact this
    · rw [if_neg e]

theorem RunNotRebuilt.tail {S : SimCfg K} {i : ℕ} {op : SimOp K} {ops : List (SimOp K)} {st st1 : SimSt K}
    (h : RunNotRebuilt S i (op :: ops) st) (h1 : op.apply S st = .ok st1) : RunNotRebuilt S i ops st1 := by
  intro pre o post he st2 h2
  refine h (op :: pre) o post (by rw [he]; rfl) st2 ?_
  simp only [simRun, h1]
  exact h2

theorem run_growth (S : SimCfg K) (hS : S.Ok) (ops : List (SimOp K)) (hops : ∀ op ∈ ops, OpOk S op) (st st' : SimSt K)
    (hinv : ∀ c ∈ st.clouds, CloudOk S.ch c.mps) (hnd : (st.clouds.map (fun c => c.name)).Nodup)
    (hh : RunHealthy S ops st) (hok : simRun S ops st = .ok st') (j : ℕ) (P : Impact K → Prop) (M : K)
    (hP : S.Hits j P) (hM : ∀ op ∈ ops, op.Yields P M j) (hM1 : 1 ≤ M) (hnr : RunNotRebuilt S j ops st) :
    0 ≤ simSources S j ops st ∧
    st'.charge j ≤ M ^ (ops.countP (SimOp.tracks j)) * (st.charge j + simSources S j ops st) := by
  induction ops generalizing st with
  | nil => cases hok; simp [simSources]
  | cons op ops ih =>
    simp only [simRun] at hok
    cases h1 : op.apply S st with
    | error e => rw [h1] at hok; cases hok
    | ok st1 =>
      rw [h1] at hok
      have hr := hh [] (List.nil_prefix) st rfl
      obtain ⟨r1, -⟩ := apply_spec S hS op (hops op List.mem_cons_self) st st1 hinv hnd hr.1 hr.2 h1
      obtain ⟨g1, g2⟩ := op_growth S hS op (hops op List.mem_cons_self) st st1 hinv hnd hr.1 hr.2 h1 j P M hP
        (hM op List.mem_cons_self) hM1 (hnr [] op ops rfl st rfl)
      obtain ⟨i1, i2⟩ := ih (fun o ho => hops o (List.mem_cons_of_mem _ ho)) st1 r1.ok (by rw [r1.names]; exact hnd)
        (hh.tail h1) hok (fun o ho => hM o (List.mem_cons_of_mem _ ho)) (hnr.tail h1)
      simp only [simSources, h1]
      refine ⟨add_nonneg g1 i1, i2.trans ?_⟩
      have h0 := st.charge_nonneg hinv j
      rw [List.countP_cons]
      set a := ops.countP (SimOp.tracks j)
      set s := simSources S j ops st1
      set b := op.source S j st st1
      have hMa : 1 ≤ M ^ a := one_le_pow₀ hM1
      by_cases ht : op.tracks j = true
      · rw [if_pos ht] at g2 ⊢
        rw [pow_succ, mul_assoc]
        refine mul_le_mul_of_nonneg_left ?_ (by positivity)
        nlinarith
      · rw [if_neg ht] at g2 ⊢
        rw [add_zero]
        refine mul_le_mul_of_nonneg_left ?_ (by positivity)
        linarith

theorem countP_tracks_primary (S : SimCfg K) (inp : StepIn K) (i j : ℕ) :
    (inp.primaryOps S i).countP (SimOp.tracks j) = 0 := by
  rw [List.countP_eq_zero]
  intro op hop
  unfold StepIn.primaryOps at hop
  rcases List.mem_append.1 hop with hop | hop
  · split at hop
    · obtain ⟨k, hk, rfl⟩ := List.mem_mapIdx.1 hop
      simp [SimOp.tracks]
    · cases hop
  · dsimp only at hop
    split at hop
    · cases hop
    · rw [List.mem_singleton.1 hop]; simp [SimOp.tracks]
    · rw [List.mem_singleton.1 hop]; simp [SimOp.tracks]

theorem countP_tracks_range (S : SimCfg K) (inp : StepIn K) (n j : ℕ) :
    ((List.range n).flatMap (fun i => SimOp.track i (inp.motion i) (inp.sey i) inp.tt :: inp.primaryOps S i)).countP
      (SimOp.tracks j) = if j < n then 1 else 0 := by
  induction n with
  | zero => simp
  | succ n ih =>
    rw [List.range_succ, List.flatMap_append, List.countP_append, ih]
    simp only [List.flatMap_cons, List.flatMap_nil, List.append_nil, List.countP_cons, countP_tracks_primary]
    simp only [SimOp.tracks, decide_eq_true_eq]
    split_ifs <;> omega

theorem countP_tracks_step (S : SimCfg K) (inp : StepIn K) (n j : ℕ) :
    (inp.ops S n).countP (SimOp.tracks j) = if j < n then 1 else 0 := by
  unfold StepIn.ops
  rw [List.countP_append, List.countP_append, countP_tracks_range]
  have h2 : ((List.range n).map (fun i => SimOp.maintain i inp.newPass inp.skipClean inp.skipRegen (inp.fullD i)
      (inp.randSoft i) (inp.randAsync i))).countP (SimOp.tracks (K := K) j) = 0 := by
    rw [List.countP_eq_zero]
    intro op hop
    obtain ⟨i, -, rfl⟩ := List.mem_map.1 hop
    simp [SimOp.tracks]
  rw [h2]
  simp [SimOp.tracks]

theorem countP_tracks_run (S : SimCfg K) (steps : List (StepIn K)) (n j : ℕ) :
    (simOps S n steps).countP (SimOp.tracks j) ≤ steps.length := by
  induction steps with
  | nil => simp [simOps]
  | cons inp l ih =>
    have : simOps S n (inp :: l) = inp.ops S n ++ simOps S n l := rfl
    rw [this, List.countP_append, countP_tracks_step]
    simp only [List.length_cons]
    split <;> omega

theorem yields_of_steps (S : SimCfg K) (steps : List (StepIn K)) (n j : ℕ) (P : Impact K → Prop) (M : K)
    (h : ∀ inp ∈ steps, YieldAtMost P M (inp.sey j)) : ∀ op ∈ simOps S n steps, op.Yields P M j := by
  intro op hop
  obtain ⟨inp, hi, ho⟩ := List.mem_flatMap.1 hop
  cases op with
  | track i step sey tt =>
    rintro rfl
    unfold StepIn.ops at ho
    rcases List.mem_append.1 ho with ho | ho
    · rcases List.mem_append.1 ho with ho | ho
      · obtain ⟨k, hk, ho⟩ := List.mem_flatMap.1 ho
        rcases List.mem_cons.1 ho with ho | ho
        · cases ho; exact h inp hi
        · exfalso
          have hz := countP_tracks_primary S inp k i
          rw [List.countP_eq_zero] at hz
          exact hz _ ho (by simp [SimOp.tracks])
      · have := List.mem_singleton.1 ho; cases this
    · obtain ⟨k, -, ho⟩ := List.mem_map.1 ho; cases ho
  | _ => trivial

end PyECLOUD
