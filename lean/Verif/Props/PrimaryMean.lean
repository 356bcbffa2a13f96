import Verif.Spec.PrimaryMean
import Verif.Props.EmitMean
import Verif.Props.Sources
import Verif.Lemmas.SimStep

/-! # Property C188: over many time steps the sources bring in the electrons asked for -/

namespace PyECLOUD

open MeasureTheory ProbabilityTheory

theorem addNew_amount (s s' : MPs ℝ) (h : s.WF) (hroom : s.nmp < s.cap) (n : ℕ) (src : Fld → Src ℝ) (l : List ℝ)
    (hx : src .x = .array l) (hl : l.length = n) (hs : ∀ f, s.tracked f = true → (src f).Fits n)
    (hnel : src .nel = .scalar s.ref) (hok : s.addNew n src = .ok s') :
    totalCharge s'.live = totalCharge s.live + s.ref * n ∧ s'.WF ∧ s'.cap = s.cap ∧ s'.ref = s.ref ∧ s.nmp ≤ s'.nmp := by
  obtain ⟨h1, h2, h3, -, h5, -⟩ := addNew_live s s' h n src l hx hl (fun _ => hroom) hs hok
  refine ⟨?_, h2, h3, h5, ?_⟩
  · rw [h1, totalCharge_append, totalCharge_const (srcParticles s.tracked n src) s.ref (fun p hp => ?_), srcParticles_length, mul_comm]
    obtain ⟨i, hi, rfl⟩ := List.getElem_of_mem hp
    have hi' : i < n := by simpa [srcParticles] using hi
    exact srcParticles_scalar _ _ src .nel s.ref (tracked_main s _ (by decide)) hnel i hi'
  · rw [(addNew_sameSizes s s' n src hok).2]; omega

theorem primCall_nmp (c : PrimCall) (u : ℝ) (s s' : MPs ℝ) (hok : c.run u s = .ok s') : s.nmp ≤ s'.nmp := by
  cases c with
  | gas =>
    simp only [PrimCall.run, gasGenerate] at hok
    split at hok
    · split at hok
      · cases hok
      · rw [(addNew_sameSizes _ _ _ _ hok).2]; omega
    · cases hok; exact le_rfl
  | photo =>
    simp only [PrimCall.run, photoGenerate, photoSet] at hok
    split at hok
    · split at hok
      · cases hok
      · rw [(addNew_sameSizes _ _ _ _ hok).2]; omega
    · cases hok; exact le_rfl
  | photoSeg =>
    simp only [PrimCall.run, photoSegGenerate] at hok
    split at hok
    · split at hok
      · cases hok
      · split at hok
        · cases hok
        · rw [(addNew_sameSizes _ _ _ _ hok).2]; omega
    · cases hok; exact le_rfl

theorem primCall_amount (c : PrimCall) (u : ℝ) (s s' : MPs ℝ) (h : s.WF) (hroom : s.nmp < s.cap) (hr : 0 < s.ref)
    (hq : 0 ≤ c.asked) (hok : c.run u s = .ok s') :
    totalCharge s'.live = totalCharge s.live + s.ref * (roundedCount (c.asked / s.ref) u : ℝ) ∧ s'.WF ∧ s'.cap = s.cap ∧
      s'.ref = s.ref := by
  have hst := roundedCount_nonneg (c.asked / s.ref) u (div_nonneg hq hr.le)
  have hcast : ∀ z : ℤ, 0 ≤ z → ((z.toNat : ℕ) : ℝ) = (z : ℝ) := fun z hz => by
    rw [← Int.cast_natCast, Int.toNat_of_nonneg hz]
  cases c with
  | gas o f xa ya k v0 lam dt sx sy xb yb d =>
    simp only [PrimCall.run, gasGenerate, stochRound_eq] at hok
    simp only [PrimCall.asked] at hst ⊢
    generalize roundedCount (k * lam * dt / s.ref) u = z at hok hst ⊢
    split at hok
    · split at hok
      · cases hok
      · next pts hp =>
        have hlen : pts.length = z.toNat := by rw [rejectLoop_length _ _ _ _ _ hp]; simp
        obtain ⟨a, b, c, e, -⟩ := addNew_amount s s' h hroom _ _ (pts.map (·.2.1)) rfl (by simpa using hlen) (by
          intro f _
          cases f <;> simp [gasSrc, Src.Fits, hlen]) rfl hok
        exact ⟨by rw [a, hcast z hst], b, c, e⟩
    · next hz =>
      cases hok
      have : z = 0 := by omega
      exact ⟨by rw [this]; simp, h, rfl, rfl⟩
  | photo ch vel ends kc mean lam dt =>
    simp only [PrimCall.run, photoGenerate, photoSet] at hok
    simp only [PrimCall.asked] at hst hq ⊢
    rw [photoCount_eq _ _ _ _ _ _ (div_nonneg hq hr.le)] at hok
    generalize roundedCount (kc * (mean.getD lam) * dt / s.ref) u = z at hok hst ⊢
    split at hok
    · split at hok
      · cases hok
      · next hits hp =>
        have hmap := mapM_ok _ _ _ hp
        have hlen : hits.length = ((List.range z.toNat).map ends).length := hmap.length_eq.symm
        obtain ⟨a, b, c, e, -⟩ := addNew_amount s s' h hroom _ _ (hits.map (·.x)) rfl (by simpa using hlen) (by
          intro f _
          cases f <;> simp [photoSrc, Src.Fits, hlen]) rfl hok
        refine ⟨?_, b, c, e⟩
        rw [a, List.length_map, List.length_range, hcast z hst]
    · next hz =>
      cases hok
      have : z = 0 := by omega
      exact ⟨by rw [this]; simp, h, rfl, rfl⟩
  | photoSeg o segs cdf vel kc mean lam dt seg r0 rounds =>
    simp only [PrimCall.run, photoSegGenerate] at hok
    simp only [PrimCall.asked] at hst hq ⊢
    rw [photoCount_eq _ _ _ _ _ _ (div_nonneg hq hr.le)] at hok
    generalize roundedCount (kc * (mean.getD lam) * dt / s.ref) u = z at hok hst ⊢
    split at hok
    · split at hok
      · cases hok
      · split at hok
        · cases hok
        · next pts hp =>
          have hlen : pts.length = z.toNat := by
            unfold phPoints at hp
            rw [rejectLoop_length _ _ _ _ _ hp]; simp
          obtain ⟨a, b, c, e, -⟩ := addNew_amount s s' h hroom _ _ _ rfl (by simp) (by
            intro f _
            cases f <;> simp [photoSrc, Src.Fits]) rfl hok
          exact ⟨by rw [a, hlen, hcast z hst], b, c, e⟩
    · next hz =>
      cases hok
      have : z = 0 := by omega
      exact ⟨by rw [this]; simp, h, rfl, rfl⟩

theorem primRun_nmp (calls : List PrimCall) (u : ℕ → ℝ) (s s' : MPs ℝ) (hok : primRun calls u s = .ok s') : s.nmp ≤ s'.nmp := by
  induction calls generalizing u s with
  | nil => cases hok; exact le_rfl
  | cons c l ih =>
    unfold primRun at hok
    split at hok
    · cases hok
    · next s1 h1 => exact (primCall_nmp c _ s s1 h1).trans (ih _ s1 hok)

theorem primRun_amount (calls : List PrimCall) (u : ℕ → ℝ) (s s' : MPs ℝ) (h : s.WF) (hr : 0 < s.ref)
    (hq : ∀ c ∈ calls, 0 ≤ c.asked) (hok : primRun calls u s = .ok s') (hroom : s'.nmp < s.cap) :
    totalCharge s'.live = totalCharge s.live +
      ∑ i : Fin calls.length, s.ref * (roundedCount (calls[i].asked / s.ref) (u i) : ℝ) := by
  induction calls generalizing u s with
  | nil => cases hok; simp
  | cons c l ih =>
    unfold primRun at hok
    split at hok
    · cases hok
    · next s1 h1 =>
      have n1 := primRun_nmp l _ s1 s' hok
      have n0 := primCall_nmp c _ s s1 h1
      obtain ⟨a, b, e, f⟩ := primCall_amount c _ s s1 h (by omega) hr (hq c (by simp)) h1
      have := ih _ s1 b (f ▸ hr) (fun c hc => hq c (by simp [hc])) hok (by rw [e]; exact hroom)
      rw [this, a, f]
      simp only [List.length_cons]
      rw [Fin.sum_univ_succ, add_assoc]
      rfl

/-- **C188**: over any sequence of calls of the sources (gas ionisation and photoemission in any order, any line densities and time
steps, any other random numbers), as long as the arrays do not fill up, the charge brought in is on average the sum of what the calls
ask for, and deviations get rare as the square of the deviation in units of the reference size over the number of calls. -/
theorem C188_primaries (calls : List PrimCall) (hq : ∀ c ∈ calls, 0 ≤ c.asked) (s : MPs ℝ) (h : s.WF) (hr : 0 < s.ref)
    (out : (Fin calls.length → ℝ) → MPs ℝ)
    (hok : ∀ ω, primRun calls (drawFn ω) s = .ok (out ω) ∧ (out ω).nmp < s.cap) :
    (∫ ω, totalCharge (out ω).live ∂(uniformDraws calls.length) = totalCharge s.live + (calls.map PrimCall.asked).sum) ∧
    ∀ ε, 0 < ε → uniformDraws calls.length
        {ω | ε ≤ |totalCharge (out ω).live - (totalCharge s.live + (calls.map PrimCall.asked).sum)|} ≤
      ENNReal.ofReal (calls.length * s.ref ^ 2 / (4 * ε ^ 2)) := by
  have : IsProbabilityMeasure (uniformDraws calls.length) := by
    have := unitDraw_prob
    unfold uniformDraws; infer_instance
  set q : Fin calls.length → ℝ := fun i => calls[i].asked / s.ref with hqd
  have hsum : (calls.map PrimCall.asked).sum = ∑ i : Fin calls.length, (s.ref * (⌊q i⌋ : ℝ) + s.ref * Int.fract (q i)) := by
    have h1 : (calls.map PrimCall.asked).sum = ∑ i : Fin calls.length, calls[i].asked := by
      rw [← List.sum_ofFn]
      congr 1
      apply List.ext_getElem <;> simp
    rw [h1]
    refine Finset.sum_congr rfl (fun i _ => ?_)
    rw [← mul_add, Int.floor_add_fract, hqd]
    field_simp
  have hpt : ∀ ω, totalCharge (out ω).live = (totalCharge s.live + ∑ i, s.ref * (⌊q i⌋ : ℝ)) +
      ∑ i, below s.ref (Int.fract (q i)) (ω i) := by
    intro ω
    rw [primRun_amount calls _ s _ h hr hq (hok ω).1 (hok ω).2, add_assoc, ← Finset.sum_add_distrib]
    congr 1
    refine Finset.sum_congr rfl (fun i _ => ?_)
    rw [drawFn_fin, below_apply]
    change s.ref * ((roundedCount (q i) (ω i) : ℤ) : ℝ) = _
    unfold roundedCount
    split
    · push_cast; ring
    · simp
  obtain ⟨m1, m2⟩ := below_sum (fun _ : Fin calls.length => s.ref) (fun i => Int.fract (q i)) (fun i => Int.fract_nonneg _)
    (fun i => (Int.fract_lt_one _).le)
  have hint : Integrable (fun ω : Fin calls.length → ℝ => ∑ i, below s.ref (Int.fract (q i)) (ω i)) (uniformDraws calls.length) := by
    have := unitDraw_prob
    refine integrable_finsetSum _ (fun i _ => ?_)
    exact (measurePreserving_eval (fun _ : Fin calls.length => volume.restrict (Set.Icc (0 : ℝ) 1)) i).integrable_comp_of_integrable
      ((below_memLp s.ref (Int.fract (q i)) 1).integrable le_rfl)
  refine ⟨?_, fun ε hε => ?_⟩
  · simp_rw [hpt]
    rw [integral_add (integrable_const _) hint, m1, integral_const, hsum, Finset.sum_add_distrib]
    simp only [probReal_univ, one_smul]
    ring
  · have e : {ω : Fin calls.length → ℝ | ε ≤ |totalCharge (out ω).live - (totalCharge s.live + (calls.map PrimCall.asked).sum)|} =
        {ω | ε ≤ |∑ i, below s.ref (Int.fract (q i)) (ω i) - ∑ i, s.ref * Int.fract (q i)|} := by
      ext ω
      simp only [Set.mem_setOf_eq]
      rw [hpt ω, hsum, Finset.sum_add_distrib]
      ring_nf
    rw [e]
    refine (m2 ε hε).trans (ENNReal.ofReal_le_ofReal (le_of_eq ?_))
    simp

/-- **C188**, the long run: if every call asks for at least `q` electrons, however small `q` is against a macroparticle, the relative
deviation of the charge brought in exceeds `δ` with a probability that falls as one over the number of calls. -/
theorem C188_long_run (calls : List PrimCall) (q : ℝ) (hq0 : 0 < q) (hq : ∀ c ∈ calls, q ≤ c.asked) (hne : calls ≠ []) (s : MPs ℝ)
    (h : s.WF) (hr : 0 < s.ref) (out : (Fin calls.length → ℝ) → MPs ℝ)
    (hok : ∀ ω, primRun calls (drawFn ω) s = .ok (out ω) ∧ (out ω).nmp < s.cap) (δ : ℝ) (hδ : 0 < δ) :
    uniformDraws calls.length {ω | δ * (calls.map PrimCall.asked).sum ≤
        |(totalCharge (out ω).live - totalCharge s.live) - (calls.map PrimCall.asked).sum|} ≤
      ENNReal.ofReal ((s.ref / q) ^ 2 / (4 * δ ^ 2 * calls.length)) := by
  have hn : (0 : ℝ) < calls.length := by exact_mod_cast List.length_pos_iff.2 hne
  have hS : calls.length * q ≤ (calls.map PrimCall.asked).sum := by
    have := List.card_nsmul_le_sum (calls.map PrimCall.asked) q (by
      intro x hx
      obtain ⟨c, hc, rfl⟩ := List.mem_map.1 hx
      exact hq c hc)
    simpa using this
  set S := (calls.map PrimCall.asked).sum with hSd
  have hS0 : 0 < S := lt_of_lt_of_le (mul_pos hn hq0) hS
  have := (C188_primaries calls (fun c hc => hq0.le.trans (hq c hc)) s h hr out hok).2 (δ * S) (mul_pos hδ hS0)
  have e : {ω : Fin calls.length → ℝ | δ * S ≤ |(totalCharge (out ω).live - totalCharge s.live) - S|} =
      {ω | δ * S ≤ |totalCharge (out ω).live - (totalCharge s.live + S)|} := by
    ext ω
    simp only [Set.mem_setOf_eq]
    rw [sub_sub]
  rw [e]
  refine this.trans (ENNReal.ofReal_le_ofReal ?_)
  rw [div_pow, div_div, div_le_div_iff₀ (by positivity) (by positivity)]
  have h2 : (calls.length * q) ^ 2 ≤ S ^ 2 := by gcongr
  have h3 : 0 ≤ 4 * s.ref ^ 2 * δ ^ 2 := by positivity
  nlinarith [mul_le_mul_of_nonneg_left h2 h3]

/-! ## a concrete case: any number of calls that ask for a third of a macroparticle each -/

/-- gas ionisation everywhere in an infinite chamber, a third of an electron per call -/
noncomputable def thirdCall : PrimCall :=
  .gas (fun _ _ => false) 1 1 1 (1 / 3) 1 1 1 1 1 0 0 ⟨0, fun _ => 0, fun _ => 1 / 4, fun _ => 3 / 4, [], 1 / 2, 1 / 2, 1 / 2⟩

theorem thirdCall_ok (u : ℝ) (s : MPs ℝ) (h : s.WF) (hr : s.ref = 1) (hroom : s.nmp < s.cap) :
    ∃ s', thirdCall.run u s = .ok s' ∧ s'.WF ∧ s'.cap = s.cap ∧ s'.ref = 1 ∧ s'.nmp ≤ s.nmp + 1 := by
  have hz : ∀ z : ℤ, z = stochRound (1 / 3 * 1 * 1 / s.ref) u → z.toNat ≤ 1 := by
    intro z hz
    rw [hr, stochRound] at hz
    have : ⌊(1 / 3 * 1 * 1 / 1 : ℝ)⌋ = 0 := by norm_num
    rw [this] at hz
    split at hz <;> omega
  simp only [thirdCall, PrimCall.run, gasGenerate]
  generalize hg : stochRound (1 / 3 * 1 * 1 / s.ref) u = z
  have hz1 := hz z hg.symm
  by_cases h0 : 0 < z.toNat
  · rw [if_pos h0, rejectLoop, if_pos (by simp)]
    dsimp only
    obtain ⟨s2, e2, -⟩ := addNew_ok s h z.toNat (gasSrc s 1 ⟨u, fun _ => 0, fun _ => 1 / 4, fun _ => 3 / 4, [], 1 / 2, 1 / 2, 1 / 2⟩
      ((List.range z.toNat).map (fun i => (decide ((0 : ℝ) < 1), gasGen 1 1 1 1 0 0 (decide ((0 : ℝ) < 1)) (1 / 4) (3 / 4)))))
      (by omega) (by
        intro f _
        cases f <;> simp [gasSrc, Src.Fits])
    obtain ⟨-, b, c, e, -⟩ := addNew_amount s s2 h hroom _ _ _ rfl (by simp) (by
      intro f _
      cases f <;> simp [gasSrc, Src.Fits]) rfl e2
    exact ⟨s2, e2, b, c, e.trans hr, by rw [(addNew_sameSizes _ _ _ _ e2).2]; omega⟩
  · rw [if_neg h0]
    exact ⟨s, rfl, h, rfl, hr, by omega⟩

theorem thirdCalls_ok (n : ℕ) (u : ℕ → ℝ) (s : MPs ℝ) (h : s.WF) (hr : s.ref = 1) (hroom : s.nmp + n < s.cap) :
    ∃ s', primRun (List.replicate n thirdCall) u s = .ok s' ∧ s'.nmp < s.cap := by
  induction n generalizing u s with
  | zero => exact ⟨s, rfl, by omega⟩
  | succ n ih =>
    obtain ⟨s1, h1, h2, h3, h4, h5⟩ := thirdCall_ok (u 0) s h hr (by omega)
    obtain ⟨s2, g1, g2⟩ := ih (fun k => u (k + 1)) s1 h2 h4 (by omega)
    refine ⟨s2, ?_, by omega⟩
    rw [List.replicate_succ, primRun, h1]
    exact g1

/-- `n` such calls on an empty cloud meet the hypotheses; the average is `n / 3` -/
example (n : ℕ) : ∃ (s : MPs ℝ) (out : (Fin (List.replicate n thirdCall).length → ℝ) → MPs ℝ), s.WF ∧ 0 < s.ref ∧
    (∀ c ∈ List.replicate n thirdCall, 0 ≤ c.asked) ∧
    (∀ ω, primRun (List.replicate n thirdCall) (drawFn ω) s = .ok (out ω) ∧ (out ω).nmp < s.cap) ∧
    ∫ ω, totalCharge (out ω).live ∂(uniformDraws (List.replicate n thirdCall).length) = (n : ℝ) / 3 := by
  have hs : (MPs.init (n + 1) (1 : ℝ) 1 1 false).WF := ⟨fun f => by
    cases f <;> simp [MPs.init, MPs.cap], Nat.zero_le _⟩
  have hcap : (MPs.init (n + 1) (1 : ℝ) 1 1 false).cap = n + 1 := by simp [MPs.init, MPs.cap]
  have hex := fun ω : Fin (List.replicate n thirdCall).length → ℝ =>
    thirdCalls_ok n (drawFn ω) (MPs.init (n + 1) (1 : ℝ) 1 1 false) hs rfl (by rw [hcap]; simp [MPs.init])
  choose out hout using hex
  have ha : ∀ c ∈ List.replicate n thirdCall, 0 ≤ c.asked := by
    intro c hc
    rw [List.eq_of_mem_replicate hc]
    norm_num [thirdCall, PrimCall.asked]
  refine ⟨MPs.init (n + 1) 1 1 1 false, out, hs, one_pos, ha, hout, ?_⟩
  rw [(C188_primaries _ ha _ hs one_pos out hout).1]
  have : totalCharge (MPs.init (n + 1) (1 : ℝ) 1 1 false).live = 0 := by simp [MPs.init, MPs.live, totalCharge]
  rw [this, List.map_replicate, List.sum_replicate]
  simp [thirdCall, PrimCall.asked]
  ring

end PyECLOUD
