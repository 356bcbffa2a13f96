import Verif.Lemmas.SaverSteps
import Verif.Lemmas.Impact
import Verif.Props.MPSystem

/-!
# Step-by-step output: C50, C51, C52, C73
-/

set_option linter.unusedSectionVars false

namespace PyECLOUD

variable {K : Type} [Field K] [LinearOrder K]

/-- **C50**: whatever the time steps, the saver divides them into consecutive groups, each closed by the first step
that comes at least `Dt_save` after the previous record; every series has one record per group, in which the impact and
emission counters are summed over all the steps of the group, and what is not yet recorded is the sum over the open
group. -/
theorem C50_groups (c : SbsCfg K) (size : ℕ) (hsize : 0 < size) (inps : List (WitIn K)) (s : Sbs K)
    (hs : (Sbs.init c size).saveAll c inps = .ok s) :
    ∃ gs opn, inps = gs.flatMap Group.steps ++ opn ∧ Grouped c.dtSave (-1) gs opn ∧
      (∀ ch ∈ c.channels, s.series ch = gs.map (fun g => g.record c ch)) ∧
      s.aImp = (opn.map (fun i => i.cnt.nelImp)).sum ∧ s.aEmit = (opn.map (fun i => i.cnt.nelEmit)).sum ∧
      s.aEnImp = (opn.map (fun i => i.cnt.enImp)).sum ∧ s.aEnEmit = (opn.map (fun i => i.cnt.enEmit)).sum := by
  obtain ⟨s', gs, opn, h1, h2⟩ := sbsInv_saveAll c size hsize inps
  rw [hs] at h1
  rw [← Except.ok.inj h1] at h2
  exact ⟨gs, opn, h2.cover, h2.grouped, h2.recd, h2.a1, h2.a2, h2.a3, h2.a4⟩

/-- **C50**: the series in use are, always, time, line density, electron number, impact and emission counters, kinetic
energy and central density; number and reference size of the macroparticles, cross-ionisation and electric energy each
under its own switch; and the configured number of custom observables. -/
theorem C50_channels (c : SbsCfg K) (ch : SCh) : ch ∈ c.channels ↔ c.Recorded ch := by
  cases ch <;> simp [SbsCfg.channels, SbsCfg.Recorded]

theorem sum_groups (f : WitIn K → K) (gs : List (Group K)) (opn : List (WitIn K)) :
    (gs.map (fun g => (g.steps.map f).sum)).sum + (opn.map f).sum = ((gs.flatMap Group.steps ++ opn).map f).sum := by
  rw [List.map_append, List.sum_append]
  congr 1
  induction gs with
  | nil => rfl
  | cons g gs ih => simp only [List.map_cons, List.sum_cons, List.flatMap_cons, List.map_append, List.sum_append, ih]

/-- **C50**: nothing is lost and nothing is counted twice: saved records plus the open group add up to the sum over all
steps. -/
theorem C50_total (c : SbsCfg K) (size : ℕ) (hsize : 0 < size) (inps : List (WitIn K)) (s : Sbs K)
    (hs : (Sbs.init c size).saveAll c inps = .ok s) :
    (s.series .nelImp).sum + s.aImp = (inps.map (fun i => i.cnt.nelImp)).sum ∧
    (s.series .nelEmit).sum + s.aEmit = (inps.map (fun i => i.cnt.nelEmit)).sum ∧
    (s.series .enImp).sum + s.aEnImp = (inps.map (fun i => i.cnt.enImp)).sum ∧
    (s.series .enEmit).sum + s.aEnEmit = (inps.map (fun i => i.cnt.enEmit)).sum := by
  obtain ⟨gs, opn, hc, -, hr, h1, h2, h3, h4⟩ := C50_groups c size hsize inps s hs
  have m : ∀ ch ∈ [SCh.nelImp, .nelEmit, .enImp, .enEmit], ch ∈ c.channels := by
    intro ch hch
    unfold SbsCfg.channels
    simp only [List.mem_cons, List.not_mem_nil, or_false] at hch
    rcases hch with rfl | rfl | rfl | rfl <;> simp
  rw [hr .nelImp (m _ (by simp)), hr .nelEmit (m _ (by simp)), hr .enImp (m _ (by simp)), hr .enEmit (m _ (by simp)),
    h1, h2, h3, h4, hc]
  exact ⟨sum_groups _ gs opn, sum_groups _ gs opn, sum_groups _ gs opn, sum_groups _ gs opn⟩

/-- **C50**: on a uniform time grid with decimation factor `d`, exactly every `d`-th step is recorded, starting with the
first. (`t0 + 1 ≥ Dt_save`: the first step is less than a second before the first record is due, which any time in
seconds meets.) -/
theorem C50_decimation [IsStrictOrderedRing K] (c : SbsCfg K) (size : ℕ) (hsize : 0 < size) (d : ℕ) (hd : 0 < d)
    (t0 dt : K) (hdt : 0 < dt) (hc : c.dtSave = dtSaveOf (d : K) dt) (h0 : c.dtSave ≤ t0 + 1)
    (inps : List (WitIn K)) (hgrid : ∀ (k : ℕ) (i : WitIn K), inps[k]? = some i → i.tt = t0 + (k : K) * dt)
    (s : Sbs K) (hs : (Sbs.init c size).saveAll c inps = .ok s) :
    s.series .t = (List.range ((inps.length + (d - 1)) / d)).map (fun (j : ℕ) => t0 + ((j * d : ℕ) : K) * dt) := by
  have key : ∀ l : List (WitIn K), (∀ (k : ℕ) (i : WitIn K), l[k]? = some i → i.tt = t0 + (k : K) * dt) →
      ∃ s gs opn, (Sbs.init c size).saveAll c l = .ok s ∧ SbsInv c s l gs opn ∧
        gs.map (fun g => g.2.tt) = (List.range ((l.length + (d - 1)) / d)).map (fun (j : ℕ) => t0 + ((j * d : ℕ) : K) * dt) ∧
        lastTime (-1 : K) gs = if l.length = 0 then -1 else t0 + (((l.length - 1) / d * d : ℕ) : K) * dt := by
    intro l
    induction l using List.reverseRecOn with
    | nil =>
      intro _
      refine ⟨_, [], [], rfl, sbsInv_init c size hsize, ?_, rfl⟩
      rw [List.length_nil, Nat.zero_add, Nat.div_eq_of_lt (by omega)]
      rfl
    | append_singleton l i ih =>
      intro hl
      obtain ⟨s, gs, opn, h1, h2, h3, h4⟩ := ih (fun k j hk => hl k j (by
        rw [List.getElem?_append_left (List.getElem?_eq_some_iff.1 hk).1]; exact hk))
      have hi : i.tt = t0 + (l.length : K) * dt := hl l.length i (by simp)
      obtain ⟨s', h5, h6⟩ := sbsInv_save c s l gs opn h2 i
      rw [saveAll_append c _ s l i h1, h5]
      -- is a record due?
      have hdue : (c.dtSave ≤ i.tt - lastTime (-1) gs) ↔ d ∣ l.length := by
        rw [h4, hi]
        by_cases hz : l.length = 0
        · rw [if_pos hz, hz]
          simp only [Nat.cast_zero, zero_mul, add_zero, dvd_zero, iff_true]
          linarith
        · rw [if_neg hz, hc, dtSaveOf]
          have hN : l.length = (l.length - 1) / d * d + ((l.length - 1) % d + 1) := by
            have := Nat.div_add_mod (l.length - 1) d
            rw [Nat.mul_comm] at this
            omega
          obtain ⟨r, hr⟩ : ∃ r, r = (l.length - 1) % d := ⟨_, rfl⟩
          obtain ⟨q, hq⟩ : ∃ q, q = (l.length - 1) / d := ⟨_, rfl⟩
          rw [← hr, ← hq] at hN
          rw [← hq]
          have hrd : r < d := by rw [hr]; exact Nat.mod_lt _ hd
          have e : t0 + (l.length : K) * dt - (t0 + ((q * d : ℕ) : K) * dt) = ((r + 1 : ℕ) : K) * dt := by
            rw [hN]; push_cast; ring
          rw [e, mul_le_mul_iff_left₀ hdt]
          constructor
          · intro h
            have : d = r + 1 := by
              by_contra hne
              have h2 : r + 1 + 1 ≤ d := by omega
              have h3 : ((r + 1 + 1 : ℕ) : K) ≤ (d : K) := Nat.cast_le.2 h2
              push_cast at h3 h
              norm_num at h
              linarith
            rw [hN, ← this]
            exact Dvd.intro (q + 1) (by ring)
          · intro h
            have h2 : d ∣ r + 1 := by
              rw [hN] at h
              exact (Nat.dvd_add_right (Dvd.intro_left q rfl)).1 h
            have h3 : r + 1 = d := le_antisymm hrd (Nat.le_of_dvd (by omega) h2)
            rw [h3]
            norm_num
      rcases h6 with ⟨hn, h6⟩ | ⟨hy, h6⟩
      · have hnd : ¬ d ∣ l.length := fun h => absurd (hdue.2 h) (not_le.2 hn)
        have hz : l.length ≠ 0 := fun h => hnd (by rw [h]; exact dvd_zero d)
        refine ⟨_, _, _, rfl, h6, ?_, ?_⟩
        · rw [h3, List.length_append, List.length_singleton]
          congr 2
          rw [show l.length + 1 + (d - 1) = l.length + (d - 1) + 1 by omega, Nat.succ_div_of_not_dvd]
          intro h
          exact hnd (by
            have : l.length + (d - 1) + 1 = l.length + d := by omega
            rw [this] at h
            exact (Nat.dvd_add_left dvd_rfl).1 h)
        · rw [h4, if_neg hz, List.length_append, List.length_singleton, if_neg (by omega), Nat.add_sub_cancel]
          have : l.length = l.length - 1 + 1 := by omega
          have e : (l.length - 1) / d = l.length / d := by
            conv_rhs => rw [this]
            rw [Nat.succ_div_of_not_dvd (by rw [← this]; exact hnd)]
          rw [e]
      · have hyd := hdue.1 hy
        obtain ⟨q, hq⟩ := hyd
        have e1 : (l.length + (d - 1)) / d = q := by
          rw [hq, Nat.mul_add_div hd, Nat.div_eq_of_lt (by omega), Nat.add_zero]
        have e2 : (l.length + 1 + (d - 1)) / d = q + 1 := by
          rw [show l.length + 1 + (d - 1) = d * q + d by omega, Nat.mul_add_div hd, Nat.div_self hd]
        refine ⟨_, _, _, rfl, h6, ?_, ?_⟩
        · rw [List.map_append, h3, List.length_append, List.length_singleton, e1, e2, List.range_succ, List.map_append]
          congr 1
          simp only [List.map_cons, List.map_nil, List.cons.injEq, and_true]
          rw [hi, hq, Nat.mul_comm]
        · rw [lastTime_append, List.length_append, List.length_singleton, if_neg (by omega), Nat.add_sub_cancel, hi]
          congr 3
          rw [hq, Nat.mul_div_cancel_left _ hd, Nat.mul_comm]
  obtain ⟨s', gs, opn, h1, h2, h3, -⟩ := key inps hgrid
  rw [hs] at h1
  rw [← Except.ok.inj h1] at h2
  rw [h2.recd .t (t_mem c)]
  exact h3

/-- **C52**: no sequence of saves can fail, and every save keeps all earlier records: from any reachable state, the
next step is saved without error and each series is either unchanged or extended by one record at the end. -/
theorem C52_no_loss (c : SbsCfg K) (size : ℕ) (hsize : 0 < size) (inps : List (WitIn K)) (i : WitIn K) :
    ∃ s s', (Sbs.init c size).saveAll c inps = .ok s ∧ s.save c i = .ok s' ∧
      ((i.tt - s.tLast < c.dtSave ∧ ∀ ch ∈ c.channels, s'.series ch = s.series ch) ∨
       (c.dtSave ≤ i.tt - s.tLast ∧ ∀ ch ∈ c.channels, ∃ v, s'.series ch = s.series ch ++ [v])) := by
  obtain ⟨s, gs, opn, h1, h2⟩ := sbsInv_saveAll c size hsize inps
  obtain ⟨s', h3, h4⟩ := sbsInv_save c s inps gs opn h2 i
  refine ⟨s, s', h1, h3, ?_⟩
  rw [h2.last]
  rcases h4 with ⟨ha, hb⟩ | ⟨ha, hb⟩
  · exact Or.inl ⟨ha, fun ch hch => by rw [hb.recd ch hch, h2.recd ch hch]⟩
  · exact Or.inr ⟨ha, fun ch hch => ⟨Group.record c (opn, i) ch, by rw [hb.recd ch hch, h2.recd ch hch, List.map_append]; rfl⟩⟩

/-- **C51** (partial): all one-dimensional series have as many samples as the time array. Missing: the densities at the
probes, see `C51_probes_violated`. -/
theorem C51_lengths_partial (c : SbsCfg K) (size : ℕ) (hsize : 0 < size) (inps : List (WitIn K)) (s : Sbs K)
    (hs : (Sbs.init c size).saveAll c inps = .ok s) (ch : SCh) (hch : ch ∈ c.channels) :
    (s.series ch).length = (s.series .t).length := by
  obtain ⟨gs, opn, -, -, hr, -⟩ := C50_groups c size hsize inps s hs
  rw [hr ch hch, hr .t (t_mem c), List.length_map, List.length_map]

/-- **C51 fails for the densities at the probes**: after any number of records, at least one, they have one sample
less than the time array; the samples they have are right. -/
theorem C51_probes_violated (c : SbsCfg K) (size : ℕ) (hsize : 0 < size) (inps : List (WitIn K)) (s : Sbs K)
    (hs : (Sbs.init c size).saveAll c inps = .ok s) (hrec : s.series .t ≠ []) :
    s.probeSeries.length = c.probes.length ∧
    (∀ row ∈ s.probeSeries, row.length + 1 = (s.series .t).length) ∧
    ∃ gs opn, inps = gs.flatMap Group.steps ++ opn ∧ Grouped c.dtSave (-1) gs opn ∧
      ∀ (k : ℕ) (p : K × K × K) (row : List K), c.probes[k]? = some p → s.probeSeries[k]? = some row →
        row = (gs.map (fun g => g.2.cloud.nelWithin p.1 p.2.1 p.2.2 / (c.pi * p.2.2 ^ 2))).dropLast := by
  obtain ⟨s', gs, opn, h1, h2⟩ := sbsInv_saveAll c size hsize inps
  rw [hs] at h1
  rw [← Except.ok.inj h1] at h2
  have hlen : (s.series .t).length = s.n := by rw [h2.recd .t (t_mem c), List.length_map, h2.num]
  have hn : s.n ≠ 0 := by
    intro h
    rw [h] at hlen
    exact hrec (List.length_eq_zero_iff.1 hlen)
  obtain ⟨L, hL0, hnL, hL, hP⟩ := h2.len
  refine ⟨by simp only [Sbs.probeSeries, List.length_map]; exact h2.probes, ?_, gs, opn, h2.cover, h2.grouped, ?_⟩
  · intro row hrow
    simp only [Sbs.probeSeries, if_neg hn, List.mem_map] at hrow
    obtain ⟨r, hr, rfl⟩ := hrow
    rw [hlen, List.length_take, hP r hr]
    omega
  · intro k p row hk hrow
    simp only [Sbs.probeSeries, if_neg hn, List.getElem?_map, Option.map_eq_some_iff] at hrow
    obtain ⟨r, hr, rfl⟩ := hrow
    have := h2.prec k p r hk hr
    simp only [probeValue] at this
    rw [← this, List.dropLast_eq_take, List.take_take, List.length_take, hP r (List.mem_of_getElem? hr)]
    congr 1
    omega

theorem head_nel (s : MPs K) (h : s.WF) : s.head .nel = s.live.map (fun p => p .nel) := by
  unfold MPs.head MPs.live
  have hl := h.len .nel
  have hf := h.fits
  rw [List.map_map]
  apply List.ext_getElem
  · simp [hl, hf]
  · intro k h1 h2
    have hk : k < (s.arr .nel).length := by
      rw [List.length_take] at h1; omega
    simp [MPs.tracked, hk]

/-- **C73**: the saved total charge, kinetic energy and densities count exactly the live macroparticles. -/
theorem C73_live_only (s : MPs K) (h : s.WF) (ke x y r : K) :
    (s.head .nel).sum = totalCharge s.live ∧
    s.kinetic ke = (s.live.map (fun p => ke * p .nel * (p .vx * p .vx + p .vy * p .vy + p .vz * p .vz))).sum ∧
    s.nelWithin x y r = totalCharge (s.live.filter (fun p => decide ((p .x - x) ^ 2 + (p .y - y) ^ 2 < r ^ 2))) := by
  refine ⟨by rw [head_nel s h]; rfl, ?_, ?_⟩
  · unfold MPs.kinetic MPs.live
    rw [List.map_map]
    rfl
  · unfold MPs.nelWithin totalCharge
    obtain ⟨k, hk⟩ : ∃ k : List Bool, k = s.live.map (fun p => decide ((p .x - x) ^ 2 + (p .y - y) ^ 2 < r ^ 2)) := ⟨_, rfl⟩
    have hkl : k.length = s.nmp := by rw [hk, List.length_map]; simp [MPs.live]
    have hm : (List.range (s.arr .x).length).map (fun i => decide (i < s.nmp) &&
        decide (((s.arr .x).getD i 0 - x) ^ 2 + ((s.arr .y).getD i 0 - y) ^ 2 < r ^ 2)) = fullMask s k := by
      unfold fullMask
      apply List.ext_getElem
      · have := h.fits
        simp only [List.length_map, List.length_range, List.length_append, List.length_replicate, hkl, MPs.cap] at this ⊢
        omega
      · intro i h1 h2
        simp only [List.length_map, List.length_range] at h1
        by_cases hi : i < s.nmp
        · rw [List.getElem_append_left (by rw [hkl]; exact hi)]
          simp only [hk, List.getElem_map, List.getElem_range, MPs.live, MPs.tracked]
          simp [hi]
        · rw [List.getElem_append_right (by rw [hkl]; omega)]
          simp [hi]
    rw [hm, maskSel_fullMask s k h hkl, ← maskSel_map_self, ← hk, maskSel_map]
    exact congrArg (fun l => (maskSel l k).sum) (head_nel s h)

/-- five time steps with a cloud of three macroparticles -/
def witToy (k : ℕ) : WitIn ℚ :=
  ⟨(k : ℚ) * (1 / 100), 7, ⟨k + 1, 2 * k, 3, 5⟩, toy, 9, (1, 2, 3), fun j => j, false, 0, 0, 0, false, 0⟩

/-- decimation by two, one probe -/
def sbsToyCfg : SbsCfg ℚ := ⟨dtSaveOf 2 (1 / 100), 1, 3, 1, true, true, true, [(0, 0, 2)], 2⟩

/-- the hypotheses of C50 to C52 hold for a run that outgrows the initial buffers -/
example : ∃ s, (Sbs.init sbsToyCfg 1).saveAll sbsToyCfg ((List.range 6).map witToy) = .ok s ∧
    (s.series .t = [0, 2 / 100, 4 / 100] ∧ s.series .nelImp = [1, 5, 9] ∧ s.aImp = 6 ∧ (s.buf .t).length = 4 ∧
      s.series (.custom 1) = [1, 1, 1] ∧ s.probeSeries.map List.length = [2]) :=
  exists_ok (by decide +kernel)

example : sbsToyCfg.dtSave ≤ 0 + 1 ∧
    ∀ (k : ℕ) (i : WitIn ℚ), ((List.range 6).map witToy)[k]? = some i → i.tt = 0 + (k : ℚ) * (1 / 100) := by
  refine ⟨by decide +kernel, fun k i h => ?_⟩
  rw [List.getElem?_map, Option.map_eq_some_iff] at h
  obtain ⟨j, hj, rfl⟩ := h
  have : j = k := by
    have := (List.getElem?_eq_some_iff.1 hj)
    obtain ⟨_, h⟩ := this
    simpa using h.symm
  rw [this, zero_add]
  rfl

end PyECLOUD
