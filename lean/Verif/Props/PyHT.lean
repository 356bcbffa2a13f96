import Verif.Spec.PyHT
import Verif.Lemmas.Regen
import Verif.Lemmas.Impact
import Verif.Props.Regen
import Verif.Model.MPHistory

/-!
# Interface to PyHEADTAIL: C58, C80, C81, C82
-/

set_option linter.unusedSectionVars false

namespace PyECLOUD

variable {K : Type} [Field K] [LinearOrder K] [IsStrictOrderedRing K] [FloorRing K] {C F : Type}

theorem sum_rep (n : ℕ) (d : K) : (List.replicate n d).sum = (n : K) * d := by
  rw [List.sum_replicate, nsmul_eq_mul]

/-- the steps of a slice -/
theorem dtArray_spec (Dt : Option K) (interact : Bool) (dt : K) (hD : ∀ D, Dt = some D → 0 < D) (l : List K)
    (h : dtArray Dt interact dt = .ok l) :
    l ≠ [] ∧ l.sum = dt ∧ (∀ D, Dt = some D → ∀ d ∈ l, d ≤ D) ∧ (interact = true → l = [dt]) := by
  have hsing : ([dt] : List K).sum = dt := by simp
  unfold dtArray at h
  cases Dt with
  | none =>
    cases h
    exact ⟨by simp, hsing, (fun D hD' => by cases hD'), fun _ => rfl⟩
  | some D =>
    simp only at h
    have hp := hD D rfl
    by_cases hgt : dt > D
    · rw [if_pos hgt] at h
      cases interact with
      | true => cases h
      | false =>
        rw [if_neg (by simp)] at h
        have hl := (Except.ok.inj h).symm
        have h1 : (1 : K) < dt / D := by rwa [lt_div_iff₀ hp, one_mul]
        have hc : (1 : ℤ) < ⌈dt / D⌉ := by
          rw [Int.lt_ceil]; simpa using h1
        obtain ⟨n, hn⟩ : ∃ n : ℕ, ⌈dt / D⌉.toNat = n := ⟨_, rfl⟩
        have hnz : ((n : ℕ) : ℤ) = ⌈dt / D⌉ := by rw [← hn]; omega
        have hn0 : (0 : K) < (n : K) := by
          have : 0 < n := by omega
          exact_mod_cast this
        rw [hn] at hl
        subst hl
        refine ⟨?_, ?_, ?_, fun hf => by cases hf⟩
        · intro he
          have := congrArg List.length he
          rw [List.length_replicate, List.length_nil] at this
          omega
        · rw [sum_rep, mul_div_cancel₀ _ hn0.ne']
        · intro D' hD' d hd
          cases hD'
          rw [List.eq_of_mem_replicate hd, div_le_iff₀ hn0]
          have : dt / D ≤ (n : K) := by
            have := Int.le_ceil (dt / D)
            rw [← hnz] at this
            exact_mod_cast this
          rw [div_le_iff₀ hp] at this
          linarith
    · rw [if_neg hgt] at h
      cases h
      refine ⟨by simp, hsing, ?_, fun _ => rfl⟩
      intro D' hD' d hd
      cases hD'
      rw [List.mem_singleton.1 hd]
      exact not_lt.1 hgt

/-- **C58**: a slice is refused exactly when it interacts with the cloud and is longer than the build-up time step. -/
theorem C58_refused_iff (Dt : Option K) (interact : Bool) (dt : K) :
    dtArray Dt interact dt = .error .valueError ↔ interact = true ∧ ∃ D, Dt = some D ∧ D < dt := by
  unfold dtArray
  cases Dt with
  | none => exact ⟨(fun h => by cases h), fun ⟨_, D, h, _⟩ => by cases h⟩
  | some D =>
    simp only
    by_cases hgt : dt > D
    · rw [if_pos hgt]
      cases interact with
      | true => exact ⟨fun _ => ⟨rfl, D, rfl, hgt⟩, fun _ => rfl⟩
      | false => exact ⟨(fun h => by cases h), fun ⟨h, _⟩ => by cases h⟩
    · rw [if_neg hgt]
      refine ⟨(fun h => by cases h), fun ⟨_, D', h, h'⟩ => ?_⟩
      cases h
      exact absurd h' hgt

theorem subSteps_spec (dtRef dt : K) (hr : 0 < dtRef) :
    1 ≤ (subSteps dtRef dt).1 ∧ ((subSteps dtRef dt).1 : K) * (subSteps dtRef dt).2 = dt ∧
      (dt ≤ dtRef → (subSteps dtRef dt).1 = 1) ∧
      (dtRef < dt → |dt / dtRef - ((subSteps dtRef dt).1 : K)| ≤ 1 / 2) := by
  unfold subSteps
  simp only
  by_cases h : dt > dtRef
  · rw [if_pos h]
    have h1 : (1 : K) < dt / dtRef := by rwa [lt_div_iff₀ hr, one_mul]
    have hn : 1 ≤ roundHE (dt / dtRef) := by
      apply le_roundHE
      push_cast
      linarith
    have hn0 : ((roundHE (dt / dtRef) : ℤ) : K) ≠ 0 := by
      have : (0 : ℤ) < roundHE (dt / dtRef) := by omega
      exact ne_of_gt (by exact_mod_cast this)
    exact ⟨hn, mul_div_cancel₀ _ hn0, fun h' => absurd h (not_lt.2 h'), fun _ => roundHE_near _⟩
  · rw [if_neg h]
    refine ⟨le_refl _, ?_, fun _ => rfl, fun h' => absurd h' h⟩
    push_cast
    rw [one_mul, div_one]

/-- the calls of a slice -/
theorem sliceCalls_get (g : EcCfg K) (interact : Bool) (pass : ℤ) (t : K) (np first : Bool) (l : List K) :
    (sliceCalls g interact pass t np first l).map (fun q => q.dt) = l ∧
    ∀ (i : ℕ) (q : SimCall K), (sliceCalls g interact pass t np first l)[i]? = some q →
      q.t = t + (l.take i).sum ∧ q.pass = pass ∧ (q.newPass = true ↔ i = 0 ∧ np = true) ∧
      (q.force = true ↔ (i = 0 ∧ first = true) ∨ interact = true) ∧ q.skipClean = interact ∧ q.skipRegen = interact ∧
      q.nSub = (subSteps g.dtRef q.dt).1 ∧ q.dtSub = (subSteps g.dtRef q.dt).2 := by
  induction l generalizing t np first with
  | nil => exact ⟨rfl, fun i q h => by simp [sliceCalls] at h⟩
  | cons dt l ih =>
    obtain ⟨h1, h2⟩ := ih (t + dt) false false
    refine ⟨by simp only [sliceCalls, List.map_cons, h1], fun i q h => ?_⟩
    cases i with
    | zero =>
      simp only [sliceCalls, List.getElem?_cons_zero, Option.some.injEq] at h
      subst h
      refine ⟨by simp, rfl, by simp, ?_, rfl, rfl, rfl, rfl⟩
      cases interact <;> cases first <;> simp
    | succ i =>
      simp only [sliceCalls, List.getElem?_cons_succ] at h
      obtain ⟨a1, a2, a3, a4, a5⟩ := h2 i q h
      refine ⟨?_, a2, ?_, ?_, a5⟩
      · rw [a1, List.take_succ_cons, List.sum_cons, add_assoc]
      · rw [a3]; simp
      · rw [a4]; simp

theorem sliceCalls_block (g : EcCfg K) (sl : SliceIn K) (pass : ℤ) (t : K) (np : Bool) (dts : List K)
    (hD : ∀ D, g.Dt = some D → 0 < D) (hr : 0 < g.dtRef)
    (h : dtArray g.Dt sl.interacts (g.dtSlice sl) = .ok dts) :
    SliceBlock g sl t np (sliceCalls g sl.interacts pass t np true dts) := by
  obtain ⟨d1, d2, d3, d4⟩ := dtArray_spec g.Dt sl.interacts (g.dtSlice sl) hD dts h
  obtain ⟨c1, c2⟩ := sliceCalls_get g sl.interacts pass t np true dts
  refine ⟨?_, ?_, ?_, ?_, ?_, ?_, ?_, ?_, ?_⟩
  · intro he
    rw [he] at c1
    exact d1 c1.symm
  · rw [c1]; exact d2
  · intro i q hq
    rw [(c2 i q hq).1, List.map_take, c1]
  · intro D hD' q hq
    refine d3 D hD' q.dt ?_
    rw [← c1]
    exact List.mem_map_of_mem hq
  · intro q hq
    obtain ⟨i, hi⟩ := List.mem_iff_getElem?.1 hq
    obtain ⟨-, -, -, -, -, -, e1, e2⟩ := c2 i q hi
    rw [e1, e2]
    exact subSteps_spec g.dtRef q.dt hr
  · intro i q hq
    exact (c2 i q hq).2.2.1
  · intro i q hq
    rw [(c2 i q hq).2.2.2.1]
    simp
  · intro hi
    have := congrArg List.length c1
    rw [List.length_map] at this
    rw [this, d4 hi]
    rfl
  · intro q hq
    obtain ⟨i, hi⟩ := List.mem_iff_getElem?.1 hq
    obtain ⟨-, -, -, -, e1, e2, -⟩ := c2 i q hi
    exact ⟨e1, e2⟩

/-- the loop over the calls -/
theorem ecCalls_log (g : EcCfg K) (m : EcSim K C F) (l : List (SimCall K)) (s s' : EcSt K C F) (sl sl' : SliceIn K)
    (h : ecCalls g m l s sl = .ok (s', sl')) :
    s'.log = s.log ++ l ∧ s'.tSim = s.tSim + (l.map (fun q => q.dt)).sum ∧ s'.cur = s.cur := by
  induction l generalizing s sl with
  | nil =>
    cases h
    simp
  | cons call l ih =>
    unfold ecCalls at h
    obtain ⟨s1, h1, h2⟩ := bind_ok h
    obtain ⟨i1, i2, i3⟩ := ih _ _ h2
    unfold ecSimStep at h1
    obtain ⟨c, -, h3⟩ := bind_ok h1
    obtain ⟨c2, -, h4⟩ := bind_ok h3
    have e := Except.ok.inj h4
    subst e
    simp only at i1 i2 i3
    refine ⟨?_, ?_, i3⟩
    · rw [i1, List.append_assoc]; rfl
    · rw [i2, List.map_cons, List.sum_cons, add_assoc]

theorem trackSlice_log (g : EcCfg K) (m : EcSim K C F) (hD : ∀ D, g.Dt = some D → 0 < D) (hr : 0 < g.dtRef) (force : Bool)
    (s s' : EcSt K C F) (sl sl' : SliceIn K) (h : trackSlice g m force s sl = .ok (s', sl')) :
    ∃ s1 np blk, ecBunch g m force s sl.info = .ok (s1, np) ∧ s'.log = s1.log ++ blk ∧ SliceBlock g sl s1.tSim np blk ∧
      s'.tSim = s1.tSim + g.dtSlice sl ∧ s'.cur = s1.cur := by
  unfold trackSlice at h
  obtain ⟨dts, h1, h2⟩ := bind_ok h
  obtain ⟨⟨s1, np⟩, h3, h4⟩ := bind_ok h2
  have hb := sliceCalls_block g sl s1.cur s1.tSim np dts hD hr h1
  obtain ⟨a, b, c⟩ := ecCalls_log g m _ s1 s' sl sl' h4
  exact ⟨s1, np, _, h3, a, hb, by rw [b, hb.total]; rfl, c⟩

/-- **C58** for a whole bunch: for every slice, last index first, the cloud steps of that slice follow in time those of the slices
before, and only the slice tracked last is marked as a new passage. -/
theorem C58_bunch (g : EcCfg K) (m : EcSim K C F) (hD : ∀ D, g.Dt = some D → 0 < D) (hr : 0 < g.dtRef)
    (slices out : List (SliceIn K)) (hinfo : ∀ sl ∈ slices, sl.info = none) (s s' : EcSt K C F)
    (hskip : ¬ (g.once = true ∧ 0 < s.nTracks)) (h : trackBunch g m s slices = .ok (s', out)) :
    ∃ blks : List (List (SimCall K)), s'.log = s.log ++ blks.flatten ∧ blks.length = slices.length ∧
      (∀ (k : ℕ) (sl : SliceIn K), slices.reverse[k]? = some sl → ∃ blk, blks[k]? = some blk ∧
        SliceBlock g sl (s.tSim + ((slices.reverse.take k).map (fun sl => sl.dz / (g.beta * g.c))).sum)
          (decide (k + 1 = slices.length)) blk) ∧
      s'.tSim = s.tSim + (slices.map (fun sl => sl.dz / (g.beta * g.c))).sum := by
  have key : ∀ (l : List (SliceIn K)) (s s' : EcSt K C F) (out : List (SliceIn K)), (∀ sl ∈ l, sl.info = none) →
      trackRev g m l s = .ok (s', out) →
      ∃ blks : List (List (SimCall K)), s'.log = s.log ++ blks.flatten ∧ blks.length = l.length ∧
        (∀ (k : ℕ) (sl : SliceIn K), l[k]? = some sl → ∃ blk, blks[k]? = some blk ∧
          SliceBlock g sl (s.tSim + ((l.take k).map (fun sl => sl.dz / (g.beta * g.c))).sum) (decide (k + 1 = l.length)) blk) ∧
        s'.tSim = s.tSim + (l.map (fun sl => sl.dz / (g.beta * g.c))).sum := by
    intro l
    induction l with
    | nil =>
      intro s s' out _ h
      cases h
      exact ⟨[], by simp, rfl, fun k sl hk => by simp at hk, by simp⟩
    | cons sl l ih =>
      intro s s' out hi h
      unfold trackRev at h
      obtain ⟨⟨s1, sl1⟩, h1, h2⟩ := bind_ok h
      obtain ⟨⟨s2, l2⟩, h3, h4⟩ := bind_ok h2
      have e := congrArg Prod.fst (Except.ok.inj h4)
      simp only at e
      subst e
      obtain ⟨t1, np, blk, b1, b2, b3, b4, -⟩ := trackSlice_log g m hD hr _ s s1 sl sl1 h1
      rw [hi sl (by simp)] at b1
      have e := Prod.mk.inj (Except.ok.inj b1)
      have e1 : t1.log = s.log := by rw [← e.1]
      have e2 : t1.tSim = s.tSim := by rw [← e.1]
      have e3 : np = l.isEmpty := by rw [← e.2]
      obtain ⟨blks, i1, i2, i3, i4⟩ := ih s1 s2 l2 (fun sl' hs => hi sl' (List.mem_cons_of_mem _ hs)) h3
      refine ⟨blk :: blks, ?_, by simp [i2], ?_, ?_⟩
      · rw [i1, b2, e1, List.flatten_cons, List.append_assoc]
      · intro k sl' hk
        cases k with
        | zero =>
          simp only [List.getElem?_cons_zero, Option.some.injEq] at hk
          subst hk
          refine ⟨blk, rfl, ?_⟩
          have : (decide (0 + 1 = (sl :: l).length)) = np := by
            rw [e3]; cases l <;> simp
          rw [this, List.take_zero, List.map_nil, List.sum_nil, add_zero, ← e2]
          exact b3
        | succ k =>
          simp only [List.getElem?_cons_succ] at hk ⊢
          obtain ⟨blk', q1, q2⟩ := i3 k sl' hk
          refine ⟨blk', q1, ?_⟩
          have : (decide (k + 1 + 1 = (sl :: l).length)) = decide (k + 1 = l.length) := by simp
          rw [this, List.take_succ_cons, List.map_cons, List.sum_cons, ← add_assoc]
          rw [b4, e2] at q2
          exact q2
      · rw [i4, b4, e2, List.map_cons, List.sum_cons, add_assoc]; rfl
  unfold trackBunch at h
  rw [if_neg (by simpa using hskip)] at h
  obtain ⟨⟨s1, l⟩, h1, h2⟩ := bind_ok h
  obtain ⟨blks, i1, i2, i3, i4⟩ := key _ _ _ _ (fun sl hs => hinfo sl (by simpa using hs)) h1
  have e := congrArg Prod.fst (Except.ok.inj h2)
  simp only at e
  subst e
  refine ⟨blks, i1, by simpa using i2, ?_, ?_⟩
  · intro k sl hk
    have := i3 k sl hk
    rw [List.length_reverse] at this
    exact this
  · rw [show (ecReinit g m s).tSim = s.tSim from rfl, List.map_reverse, List.sum_reverse] at i4
    exact i4

/-- **C58** for a train of bunches, slice by slice: from a state where no bunch has been met, for every slice the cloud steps
of that slice follow in time those of the slices before, and are marked as a new passage when the slice starts the train or
is of a new bunch. -/
theorem C58_train (g : EcCfg K) (m : EcSim K C F) (hD : ∀ D, g.Dt = some D → 0 < D) (hr : 0 < g.dtRef)
    (slices out : List (SliceIn K)) (key : SliceIn K → ℤ × ℤ)
    (hinfo : ∀ sl ∈ slices, ∃ i, sl.info = some i ∧ i.parent = some (key sl).1 ∧ i.iSlice = (key sl).2 ∧ 0 ≤ (key sl).1)
    (s s' : EcSt K C F) (hcur : s.cur = -1) (h : trackSlices g m slices s = .ok (s', out)) :
    ∃ blks : List (List (SimCall K)), s'.log = s.log ++ blks.flatten ∧ blks.length = slices.length ∧
      (∀ (k : ℕ) (sl : SliceIn K), slices[k]? = some sl → ∃ blk flag, blks[k]? = some blk ∧
        (passFlags [] (slices.map key))[k]? = some flag ∧
        SliceBlock g sl (s.tSim + ((slices.take k).map (fun sl => sl.dz / (g.beta * g.c))).sum) flag blk) ∧
      s'.tSim = s.tSim + (slices.map (fun sl => sl.dz / (g.beta * g.c))).sum := by
  have gen : ∀ (l : List (SliceIn K)) (seen : List ℤ) (s s' : EcSt K C F) (out : List (SliceIn K)),
      (∀ sl ∈ l, ∃ i, sl.info = some i ∧ i.parent = some (key sl).1 ∧ i.iSlice = (key sl).2 ∧ 0 ≤ (key sl).1) →
      (∀ b ∈ seen, b ≤ s.cur) → ((seen = [] ∧ s.cur = -1) ∨ s.cur ∈ seen) → trackSlices g m l s = .ok (s', out) →
      ∃ blks : List (List (SimCall K)), s'.log = s.log ++ blks.flatten ∧ blks.length = l.length ∧
        (∀ (k : ℕ) (sl : SliceIn K), l[k]? = some sl → ∃ blk flag, blks[k]? = some blk ∧
          (passFlags seen (l.map key))[k]? = some flag ∧
          SliceBlock g sl (s.tSim + ((l.take k).map (fun sl => sl.dz / (g.beta * g.c))).sum) flag blk) ∧
        s'.tSim = s.tSim + (l.map (fun sl => sl.dz / (g.beta * g.c))).sum := by
    intro l
    induction l with
    | nil =>
      intro seen s s' out _ _ _ h
      cases h
      exact ⟨[], by simp, rfl, fun k sl hk => by simp at hk, by simp⟩
    | cons sl l ih =>
      intro seen s s' out hi hle hmem h
      unfold trackSlices at h
      obtain ⟨⟨s1, sl1⟩, h1, h2⟩ := bind_ok h
      obtain ⟨⟨s2, l2⟩, h3, h4⟩ := bind_ok h2
      have e := congrArg Prod.fst (Except.ok.inj h4)
      simp only at e
      subst e
      obtain ⟨t1, np, blk, b1, b2, b3, b4, b5⟩ := trackSlice_log g m hD hr _ s s1 sl sl1 h1
      obtain ⟨i, f1, f2, f3, f4⟩ := hi sl (by simp)
      -- the passage information
      obtain ⟨seen', flag, g1, g2, g3, g4, g5, g6⟩ : ∃ (seen' : List ℤ) (flag : Bool),
          passFlags seen ((sl :: l).map key) = flag :: passFlags seen' (l.map key) ∧ np = flag ∧ t1.log = s.log ∧
          t1.tSim = s.tSim ∧ (∀ b ∈ seen', b ≤ t1.cur) ∧ t1.cur ∈ seen' := by
        unfold ecBunch at b1
        rw [f1] at b1
        simp only [Option.bind_some, f2, Option.map_some, f3] at b1
        rw [List.map_cons]
        obtain ⟨b, j, hk⟩ : ∃ b j, key sl = (b, j) := ⟨_, _, rfl⟩
        rw [hk] at b1 f4 ⊢
        simp only at b1 f4
        by_cases hz : b = 0 ∧ j = 0 ∧ g.sliceMode = false
        · rw [if_pos hz] at b1; cases b1
        · rw [if_neg hz] at b1
          by_cases hs : b = 0 ∧ j = 0
          · rw [if_pos hs] at b1
            have hgt : b > (ecReinit g m (ecFinalize g s)).cur := by
              show b > -1
              omega
            rw [if_pos hgt] at b1
            have e := Prod.mk.inj (Except.ok.inj b1)
            refine ⟨[0], true, by simp only [passFlags, if_pos hs], by rw [← e.2], by rw [← e.1]; rfl,
              by rw [← e.1]; rfl, ?_, ?_⟩
            · rw [← e.1]
              intro b' hb'
              rw [List.mem_singleton.1 hb']
              exact f4
            · rw [← e.1]
              simp [hs.1]
          · rw [if_neg hs] at b1
            have hflag : (∀ b' ∈ seen, b' < b) ↔ b > s.cur := by
              constructor
              · intro hb
                rcases hmem with ⟨-, hc⟩ | hc
                · rw [hc]; omega
                · exact hb _ hc
              · intro hb b' hb'
                exact lt_of_le_of_lt (hle b' hb') hb
            by_cases hgt : b > s.cur
            · rw [if_pos hgt] at b1
              have e := Prod.mk.inj (Except.ok.inj b1)
              refine ⟨b :: seen, true, ?_, by rw [← e.2], by rw [← e.1], by rw [← e.1], ?_, ?_⟩
              · simp only [passFlags, if_neg hs]
                rw [decide_eq_true (hflag.2 hgt)]
              · rw [← e.1]
                intro b' hb'
                rcases List.mem_cons.1 hb' with rfl | hb'
                · exact le_refl _
                · exact le_of_lt (lt_of_le_of_lt (hle b' hb') hgt)
              · rw [← e.1]
                simp
            · rw [if_neg hgt] at b1
              have e := Prod.mk.inj (Except.ok.inj b1)
              refine ⟨b :: seen, false, ?_, by rw [← e.2], by rw [← e.1], by rw [← e.1], ?_, ?_⟩
              · simp only [passFlags, if_neg hs]
                rw [decide_eq_false (fun hc => hgt (hflag.1 hc))]
              · rw [← e.1]
                intro b' hb'
                rcases List.mem_cons.1 hb' with rfl | hb'
                · exact not_lt.1 hgt
                · exact hle b' hb'
              · rw [← e.1]
                rcases hmem with ⟨-, hc⟩ | hc
                · exfalso
                  rw [hc] at hgt
                  omega
                · exact List.mem_cons_of_mem _ hc
      obtain ⟨blks, i1, i2, i3, i4⟩ := ih seen' s1 s2 l2 (fun sl' hs => hi sl' (List.mem_cons_of_mem _ hs))
        (by rw [b5]; exact g5) (Or.inr (by rw [b5]; exact g6)) h3
      refine ⟨blk :: blks, ?_, by simp [i2], ?_, ?_⟩
      · rw [i1, b2, g3, List.flatten_cons, List.append_assoc]
      · intro k sl' hk
        cases k with
        | zero =>
          simp only [List.getElem?_cons_zero, Option.some.injEq] at hk
          subst hk
          refine ⟨blk, flag, rfl, by rw [g1]; rfl, ?_⟩
          rw [List.take_zero, List.map_nil, List.sum_nil, add_zero, ← g4, ← g2]
          exact b3
        | succ k =>
          simp only [List.getElem?_cons_succ] at hk ⊢
          obtain ⟨blk', fl', q1, q2, q3⟩ := i3 k sl' hk
          refine ⟨blk', fl', q1, by rw [g1]; exact q2, ?_⟩
          rw [List.take_succ_cons, List.map_cons, List.sum_cons, ← add_assoc]
          rw [b4, g4] at q3
          exact q3
      · rw [i4, b4, g4, List.map_cons, List.sum_cons, add_assoc]; rfl
  exact gen slices [] s s' out hinfo (by simp) (Or.inl ⟨rfl, hcur⟩) h

/-- the call made for an interacting slice -/
def callOf (g : EcCfg K) (sl : SliceIn K) (pass : ℤ) (t : K) (np : Bool) : SimCall K where
  t := t
  dt := g.dtSlice sl
  pass := pass
  newPass := np
  nSub := (subSteps g.dtRef (g.dtSlice sl)).1
  dtSub := (subSteps g.dtRef (g.dtSlice sl)).2
  force := true
  skipClean := true
  skipRegen := true
  reinterp := g.reinterp

/-- what one interacting slice does: it is kicked once, by the field recomputed after the cloud has moved, and that field is
recorded -/
theorem trackSlice_interacting (g : EcCfg K) (m : EcSim K C F) (force : Bool) (s s' : EcSt K C F) (sl sl' : SliceIn K)
    (hi : sl.interacts = true) (h : trackSlice g m force s sl = .ok (s', sl')) :
    ∃ s1 np c c2, ecBunch g m force s sl.info = .ok (s1, np) ∧
      m.move (callOf g sl s1.cur s1.tSim np) (beamOf g sl) s1.field s1.cloud = .ok c ∧
      m.maint (callOf g sl s1.cur s1.tSim np) c = .ok c2 ∧ s'.field = m.solve c ∧ s'.cloud = c2 ∧
      sl' = ecKick g m (m.solve c) sl ∧
      s'.saved = (if g.saveField then s1.saved ++ [m.solve c] else s1.saved) ∧ s'.nTracks = s1.nTracks ∧ s'.cur = s1.cur := by
  unfold trackSlice at h
  obtain ⟨dts, h1, h2⟩ := bind_ok h
  obtain ⟨⟨s1, np⟩, h3, h4⟩ := bind_ok h2
  have hd : dts = [g.dtSlice sl] := by
    rw [hi] at h1
    unfold dtArray at h1
    split at h1
    · exact (Except.ok.inj h1).symm
    · split at h1
      · rw [if_pos rfl] at h1; cases h1
      · exact (Except.ok.inj h1).symm
  subst hd
  rw [hi] at h4
  simp only [sliceCalls, ecCalls] at h4
  obtain ⟨s2, h5, h6⟩ := bind_ok h4
  unfold ecSimStep at h5
  obtain ⟨c, hc, h7⟩ := bind_ok h5
  obtain ⟨c2, hc2, h8⟩ := bind_ok h7
  have e := Except.ok.inj h8
  subst e
  obtain ⟨e1, e2⟩ := Prod.mk.inj (Except.ok.inj h6)
  refine ⟨s1, np, c, c2, h3, hc, hc2, ?_, ?_, ?_, ?_, ?_, ?_⟩
  · rw [← e1]; simp [scDo]
  · rw [← e1]
  · rw [← e2, if_pos hi]; simp [scDo]
  · rw [← e1]; simp [scDo]
  · rw [← e1]
  · rw [← e1]

/-- the kicks of a bunch, and the recorded fields -/
theorem trackRev_fields (g : EcCfg K) (m : EcSim K C F) (hg : g.saveField = true) (l : List (SliceIn K))
    (hinfo : ∀ sl ∈ l, sl.info = none) (s s' : EcSt K C F) (out : List (SliceIn K)) (h : trackRev g m l s = .ok (s', out)) :
    ∃ fs : List F, fs.length = l.length ∧ s'.saved = s.saved ++ fs ∧ out = List.zipWith (ecKick g m) fs l := by
  induction l generalizing s out with
  | nil =>
    cases h
    exact ⟨[], rfl, by simp, rfl⟩
  | cons sl l ih =>
    unfold trackRev at h
    obtain ⟨⟨s1, sl1⟩, h1, h2⟩ := bind_ok h
    obtain ⟨⟨s2, l2⟩, h3, h4⟩ := bind_ok h2
    obtain ⟨e1, e2⟩ := Prod.mk.inj (Except.ok.inj h4)
    subst e1 e2
    have hn := hinfo sl (by simp)
    obtain ⟨t1, np, c, c2, b1, -, -, -, -, b2, b3, -⟩ :=
      trackSlice_interacting g m _ s s1 sl sl1 (by unfold SliceIn.interacts; rw [hn]; rfl) h1
    rw [hn] at b1
    obtain ⟨e1, -⟩ := Prod.mk.inj (Except.ok.inj b1)
    have e3 : t1.saved = s.saved := by rw [← e1]
    obtain ⟨fs, i1, i2, i3⟩ := ih (fun x hx => hinfo x (List.mem_cons_of_mem _ hx)) s1 l2 h3
    refine ⟨m.solve c :: fs, by simp [i1], ?_, ?_⟩
    · rw [i2, b3, if_pos hg, e3, List.append_assoc]; rfl
    · rw [i3, b2]; rfl

theorem frozenRev_eq (g : EcCfg K) (m : EcSim K C F) (fs : List F) (l : List (SliceIn K)) (h : fs.length = l.length) :
    frozenRev g m fs l = .ok (List.zipWith (frozenKick g m) fs l) := by
  induction l generalizing fs with
  | nil =>
    cases fs with
    | nil => rfl
    | cons f fs => cases h
  | cons sl l ih =>
    cases fs with
    | nil => cases h
    | cons f fs =>
      unfold frozenRev
      rw [ih fs (by simpa using h)]
      rfl

theorem frozenKick_eq (g : EcCfg K) (m : EcSim K C F) (hx : g.kickX = true) (hy : g.kickY = true)
    (hp : g.p0 = g.mass * g.gamma * g.beta * g.c) : frozenKick g m = ecKick g m := by
  funext f sl
  unfold frozenKick ecKick
  have e : g.p0 * g.beta * g.c = g.mass * g.beta * g.beta * g.gamma * g.c * g.c := by rw [hp]; ring
  simp only [e, hx, hy, sub_zero, if_true]

/-- **C80** with both kicks enabled: a bunch tracked with the recorded field map gets, slice by slice, exactly the kicks it got when
the map was recorded (for a beam with `p0 = m γ β c`). -/
theorem C80_frozen_partial (g : EcCfg K) (m : EcSim K C F) (hg : g.saveField = true) (hx : g.kickX = true) (hy : g.kickY = true)
    (hp : g.p0 = g.mass * g.gamma * g.beta * g.c) (s s' : EcSt K C F) (slices out : List (SliceIn K))
    (hinfo : ∀ sl ∈ slices, sl.info = none) (hskip : ¬ (g.once = true ∧ 0 < s.nTracks))
    (h : trackBunch g m s slices = .ok (s', out)) : frozenTrack g m s'.saved slices = .ok out := by
  unfold trackBunch at h
  rw [if_neg (by simpa using hskip)] at h
  obtain ⟨⟨s1, l⟩, h1, h2⟩ := bind_ok h
  obtain ⟨e1, e2⟩ := Prod.mk.inj (Except.ok.inj h2)
  subst e1 e2
  obtain ⟨fs, i1, i2, i3⟩ := trackRev_fields g m hg _ (fun sl hs => hinfo sl (by simpa using hs)) _ _ _ h1
  have hs : (ecReinit g m s).saved = [] := by
    show (if g.saveField then _ else _) = _
    rw [if_pos hg]
  rw [hs, List.nil_append] at i2
  unfold frozenTrack
  have hsv : (ecFinalize g s1).saved = fs.reverse := by
    show (if g.saveField then _ else _) = _
    rw [if_pos hg, i2]
  simp only [hsv, List.reverse_reverse]
  rw [frozenRev_eq g m fs _ i1, frozenKick_eq g m hx hy hp, i3]
  rfl

/-- **C81** with a clock-independent simulation: what a bunch gets from the cloud does not depend on the bunches tracked before,
except through the field left in the solver (and through nothing else: not the cloud, the bunch number or the records). -/
theorem C81_independent_partial (g : EcCfg K) (m : EcSim K C F)
    (hmove : ∀ call t beam f c, m.move { call with t := t } beam f c = m.move call beam f c)
    (hmaint : ∀ call t c, m.maint { call with t := t } c = m.maint call c)
    (slices : List (SliceIn K)) (hinfo : ∀ sl ∈ slices, sl.info = none) (s1 s2 s1' s2' : EcSt K C F) (out1 out2 : List (SliceIn K))
    (hfield : s1.field = s2.field) (hk1 : ¬ (g.once = true ∧ 0 < s1.nTracks)) (hk2 : ¬ (g.once = true ∧ 0 < s2.nTracks))
    (h1 : trackBunch g m s1 slices = .ok (s1', out1)) (h2 : trackBunch g m s2 slices = .ok (s2', out2)) :
    out1 = out2 ∧ s1'.cloud = s2'.cloud ∧ (slices ≠ [] → s1'.field = s2'.field) := by
  have key : ∀ (l : List (SliceIn K)), (∀ sl ∈ l, sl.info = none) → ∀ (a b a' b' : EcSt K C F) (x y : List (SliceIn K)),
      a.field = b.field → a.cloud = b.cloud → trackRev g m l a = .ok (a', x) → trackRev g m l b = .ok (b', y) →
      x = y ∧ a'.cloud = b'.cloud ∧ a'.field = b'.field := by
    intro l
    induction l with
    | nil =>
      intro _ a b a' b' x y hf hc ha hb
      cases ha
      cases hb
      exact ⟨rfl, hc, hf⟩
    | cons sl l ih =>
      intro hi a b a' b' x y hf hc ha hb
      unfold trackRev at ha hb
      obtain ⟨⟨a1, sa⟩, ha1, ha2⟩ := bind_ok ha
      obtain ⟨⟨a2, la⟩, ha3, ha4⟩ := bind_ok ha2
      obtain ⟨⟨b1, sb⟩, hb1, hb2⟩ := bind_ok hb
      obtain ⟨⟨b2, lb⟩, hb3, hb4⟩ := bind_ok hb2
      obtain ⟨e1, e2⟩ := Prod.mk.inj (Except.ok.inj ha4)
      obtain ⟨e3, e4⟩ := Prod.mk.inj (Except.ok.inj hb4)
      subst e1 e2 e3 e4
      have hn := hi sl (by simp)
      have hint : sl.interacts = true := by unfold SliceIn.interacts; rw [hn]; rfl
      obtain ⟨t1, p1, c1, d1, u1, u2, u3, u4, u5, u6, -, -, -⟩ := trackSlice_interacting g m _ a a1 sl sa hint ha1
      obtain ⟨t2, p2, c2, d2, v1, v2, v3, v4, v5, v6, -, -, -⟩ := trackSlice_interacting g m _ b b1 sl sb hint hb1
      rw [hn] at u1 v1
      obtain ⟨e1, e2⟩ := Prod.mk.inj (Except.ok.inj u1)
      obtain ⟨e3, e4⟩ := Prod.mk.inj (Except.ok.inj v1)
      subst e1 e2 e3 e4
      simp only at u2 u3 v2 v3
      rw [hf, hc] at u2
      have hcall : ∀ tt : K, callOf g sl 0 tt l.isEmpty = { callOf g sl 0 b.tSim l.isEmpty with t := tt } := fun _ => rfl
      rw [hcall, hmove] at u2
      rw [hcall, hmaint] at u3
      have ec : c1 = c2 := Except.ok.inj (u2.symm.trans v2)
      subst ec
      have ed : d1 = d2 := Except.ok.inj (u3.symm.trans v3)
      subst ed
      obtain ⟨r1, r2, r3⟩ := ih (fun x hx => hi x (List.mem_cons_of_mem _ hx)) a1 b1 a2 b2 la lb (u4.trans v4.symm)
        (u5.trans v5.symm) ha3 hb3
      exact ⟨by rw [u6, v6, r1], r2, r3⟩
  unfold trackBunch at h1 h2
  rw [if_neg (by simpa using hk1)] at h1
  rw [if_neg (by simpa using hk2)] at h2
  obtain ⟨⟨x1, l1⟩, ha, hb⟩ := bind_ok h1
  obtain ⟨⟨x2, l2⟩, hc, hd⟩ := bind_ok h2
  obtain ⟨e1, e2⟩ := Prod.mk.inj (Except.ok.inj hb)
  obtain ⟨e3, e4⟩ := Prod.mk.inj (Except.ok.inj hd)
  subst e1 e2 e3 e4
  obtain ⟨r1, r2, r3⟩ := key slices.reverse (fun sl hs => hinfo sl (by simpa using hs)) (ecReinit g m s1) (ecReinit g m s2)
    _ _ _ _ hfield rfl ha hc
  exact ⟨by rw [r1], r2, fun _ => r3⟩

/-- The first motion of a bunch takes place in the field that the bunch before has left in the solver: the initial cloud is moved
in `s.field`, whatever that is. -/
theorem C81_stale_field (g : EcCfg K) (m : EcSim K C F) (s s' : EcSt K C F) (sl : SliceIn K) (hn : sl.info = none)
    (out : List (SliceIn K)) (hskip : ¬ (g.once = true ∧ 0 < s.nTracks)) (h : trackBunch g m s [sl] = .ok (s', out)) :
    ∃ c, m.move (callOf g sl 0 s.tSim true) (sl.pos.map (fun q => (q.1 + g.xOff, q.2 + g.yOff))) s.field m.init = .ok c ∧
      out = [ecKick g m (m.solve c) sl] ∧ s'.field = m.solve c := by
  unfold trackBunch at h
  rw [if_neg (by simpa using hskip)] at h
  obtain ⟨⟨s1, l⟩, h1, h2⟩ := bind_ok h
  obtain ⟨e1, e2⟩ := Prod.mk.inj (Except.ok.inj h2)
  subst e1 e2
  simp only [List.reverse_cons, List.reverse_nil, List.nil_append, trackRev] at h1
  obtain ⟨⟨t1, sl1⟩, h3, h4⟩ := bind_ok h1
  have hint : sl.interacts = true := by unfold SliceIn.interacts; rw [hn]; rfl
  obtain ⟨u, np, c, d, u1, u2, u3, u4, u5, u6, -, -, -⟩ := trackSlice_interacting g m _ _ t1 sl sl1 hint h3
  rw [hn] at u1
  obtain ⟨e1, e2⟩ := Prod.mk.inj (Except.ok.inj u1)
  subst e1 e2
  obtain ⟨e3, e4⟩ := Prod.mk.inj (Except.ok.inj h4)
  subst e3 e4
  have hb : beamOf g sl = sl.pos.map (fun q => (q.1 + g.xOff, q.2 + g.yOff)) := by
    unfold beamOf
    rw [if_pos hint]
  rw [hb] at u2
  exact ⟨c, u2, by rw [u6]; rfl, u4⟩

/-! Concrete cases -/

/-- a cloud at position `c` attracted by the beam and pushed by its own field -/
def ecToy : EcSim ℚ ℚ ℚ where
  init := 1
  move := fun _ beam f c => .ok (c + f + (beam.map (fun q => q.1)).sum)
  solve := fun c => c / 2
  maint := fun _ c => .ok c
  gather := fun f _ _ => (f, -f)
  tScOn := 0
  dtSc := none

def ecToyCfg : EcCfg ℚ where
  Dt := some 10
  dtRef := 2
  beta := 1
  gamma := 2
  mass := 1
  charge := 1
  p0 := 2
  c := 1
  len := 4
  xOff := 0
  yOff := 0
  kickX := true
  kickY := true
  reinterp := false
  sliceMode := false
  saveField := true
  once := false

def ecToySt : EcSt ℚ ℚ ℚ := ⟨0, 0, -1, 1, 0, [], 0, 0, []⟩

def ecToySlices : List (SliceIn ℚ) :=
  [⟨7, none, [(1, 0), (2, 1)], [(0, 0), (0, 0)]⟩, ⟨3, none, [(3, 0)], [(0, 0)]⟩, ⟨1, none, [], []⟩]

/-- as `exists_ok`, with the results of a tracking -/
theorem exists_okT {α E : Type} {r : Except E α} {p : α → Prop} [DecidablePred p]
    (h : (match r with | .ok s => decide (p s) | .error _ => false) = true) : ∃ s, r = .ok s ∧ p s := by
  cases r with
  | error e => simp at h
  | ok s => exact ⟨s, rfl, by simpa using h⟩

/-- a bunch of three slices, the last two as long as one and two sub-steps: time, passage and kicks -/
example : ∃ r, trackBunch ecToyCfg ecToy ecToySt ecToySlices = .ok r ∧
    (r.1.tSim = 11 ∧ r.1.log.map (fun q => (q.t, q.dt, q.nSub, q.newPass)) = [(0, 1, 1, false), (1, 3, 2, false), (4, 7, 4, true)] ∧
      r.1.saved = [39 / 8, 9 / 4, 1 / 2] ∧ frozenTrack ecToyCfg ecToy r.1.saved ecToySlices = .ok r.2) := by
  refine exists_okT ?_
  decide +kernel

/-- a train, slice by slice: a long slice without interaction makes three steps, the passage is marked once -/
example : ∃ r, trackSlices { ecToyCfg with sliceMode := true } ecToy
    [⟨5, some ⟨none, some 0, 0⟩, [(1, 0)], [(0, 0)]⟩, ⟨25, some ⟨some false, some 0, 1⟩, [(1, 0)], [(0, 0)]⟩,
      ⟨5, some ⟨none, some 1, 0⟩, [(1, 0)], [(0, 0)]⟩] ecToySt = .ok r ∧
    (r.1.tSim = 35 ∧ r.1.log.map (fun q => (q.t, q.newPass, q.force)) =
      [(0, true, true), (5, false, true), (40 / 3, false, false), (65 / 3, false, false), (30, true, true)]) := by
  refine exists_okT ?_
  decide +kernel

/-- **C80** fails with a kick disabled: the frozen map applies it all the same. -/
theorem C80_violated : ∃ r, trackBunch { ecToyCfg with kickX := false } ecToy ecToySt ecToySlices = .ok r ∧
    (r.2.map (fun sl => sl.slope.map (fun v => v.1)) = [[0, 0], [0], []] ∧
      frozenTrack { ecToyCfg with kickX := false } ecToy r.1.saved ecToySlices ≠ .ok r.2) := by
  refine exists_okT ?_
  decide +kernel

/-- **C81** fails: the same bunch tracked twice gets different kicks, as the first motion of the second time takes place in the
field left by the first. -/
theorem C81_violated : ∃ r, trackBunch ecToyCfg ecToy ecToySt ecToySlices = .ok r ∧
    (∃ q, trackBunch ecToyCfg ecToy r.1 ecToySlices = .ok q ∧ r.2 ≠ q.2) := by
  obtain ⟨r, h1, h2⟩ : ∃ r, trackBunch ecToyCfg ecToy ecToySt ecToySlices = .ok r ∧
      ((trackBunch ecToyCfg ecToy r.1 ecToySlices).map (fun q => decide (r.2 ≠ q.2))) = .ok true := by
    refine exists_okT ?_
    decide +kernel
  refine ⟨r, h1, ?_⟩
  cases hq : trackBunch ecToyCfg ecToy r.1 ecToySlices with
  | error e => rw [hq] at h2; cases h2
  | ok q =>
    rw [hq] at h2
    exact ⟨q, rfl, of_decide_eq_true (Except.ok.inj h2)⟩

/-- `ecToy` does not look at the clock -/
example : (∀ call t beam f c, ecToy.move { call with t := t } beam f c = ecToy.move call beam f c) ∧
    (∀ call t c, ecToy.maint { call with t := t } c = ecToy.maint call c) := ⟨fun _ _ _ _ _ => rfl, fun _ _ _ => rfl⟩

/-- **C82** without asynchronous regeneration: a step with cleanings and regenerations suspended leaves the macroparticles as they
are, at the end of a passage and otherwise. -/
theorem C82_suspended_partial (s : MPs K) (newPass : Bool) (full : FullCfg K) (cfg : RegenCfg) (ha : cfg.async = none)
    (fuel : ℕ) (d : FullDraws K) (r1 r2 : ℕ → K) : s.maintenance newPass true true full cfg fuel d r1 r2 = .ok s := by
  unfold MPs.maintenance
  simp [MPs.checkAsync, ha]

/-- **C82** fails with asynchronous regeneration, which takes place in spite of the suspension: three macroparticles become one. -/
theorem C82_violated : ∃ s', toy.maintenance false true true toyCfg ⟨none, some (2, 1)⟩ 5 halfDraws (fun _ => 0) (fun i => if i = 0 then 0 else 1) = .ok s' ∧
    (toy.nmp = 3 ∧ s'.nmp ≠ 3) := by
  refine exists_okT ?_
  decide +kernel

end PyECLOUD
