import Verif.Props.Timing
import Verif.Lemmas.BeamCharge
import Verif.Props.Sources
import Mathlib.Analysis.Complex.ExponentialBounds
import Mathlib.Analysis.Real.Pi.Bounds

/-!
# C177: the beam that passes has the intensity asked for
-/

namespace PyECLOUD

open Real

theorem sum_range_map {K : Type} [Field K] (f : ℕ → K) : ∀ n : ℕ, ((List.range n).map f).sum = ∑ i ∈ Finset.range n, f i
  | 0 => by simp
  | n + 1 => by rw [List.range_succ, List.map_append, List.sum_append, sum_range_map f n, Finset.sum_range_succ]; simp

theorem foldlM_sum {α : Type} (w : α → ℝ) : ∀ (l : List α) (q : ℝ),
    l.foldlM (fun s b => (Except.ok (s + w b) : Except PyErr ℝ)) q = .ok (q + (l.map w).sum)
  | [], q => by simp; rfl
  | a :: l, q => by
    rw [List.foldlM_cons]
    show l.foldlM (fun s b => (Except.ok (s + w b) : Except PyErr ℝ)) (q + w a) = _
    rw [foldlM_sum w l, List.map_cons, List.sum_cons, add_assoc]

/-- the sum of the line density over the steps of a run, with a factor -/
theorem run_sum (wt c tOffs bSpac tEnd dt factBeam coast σ : ℝ) (ppb : List ℝ) (hdt : 0 < dt) (hb : 0 < bSpac) (hE : 0 ≤ tEnd) (fuel : ℕ)
    (hfuel : (timeGrid ppb.length bSpac tEnd dt).length < fuel) :
    ∃ b, runLoop ⟨timeGrid ppb.length bSpac tEnd dt, (timeGrid ppb.length bSpac tEnd dt).map
          (fun t => lineDensity c t bSpac tOffs factBeam coast ppb σ), bSpac, true⟩
        (fun b q => .ok (q + wt * (b.lamCurr.getD 0) * (b.dtCurr.getD 0))) none fuel BeamSt.init 0
      = .ok (b, ∑ k ∈ Finset.range ((timeGrid ppb.length bSpac tEnd dt).length - 1),
          wt * lineDensity c ((k : ℝ) * dt) bSpac tOffs factBeam coast ppb σ * dt) := by
  set t := timeGrid ppb.length bSpac tEnd dt with ht
  obtain ⟨h2, hget, hmono, -, -⟩ := C64_time_grid ppb.length bSpac tEnd dt hdt hb hE
  rw [← ht] at h2 hget hmono
  set g : BeamGrid ℝ := ⟨t, t.map (fun t => lineDensity c t bSpac tOffs factBeam coast ppb σ), bSpac, true⟩ with hg
  obtain ⟨tr, ⟨hlen, htr⟩, hrun⟩ := C40_run g hb hmono (by simp [hg])
  have h := hrun ℝ (fun b q => .ok (q + wt * (b.lamCurr.getD 0) * (b.dtCurr.getD 0))) 0 fuel hfuel.le (by omega)
  rw [foldlM_sum (fun b : BeamSt ℝ => wt * (b.lamCurr.getD 0) * (b.dtCurr.getD 0))] at h
  refine ⟨tr.getLastD BeamSt.init, h.trans ?_⟩
  simp only [zero_add]
  congr 2
  rw [← sum_range_map]
  congr 1
  refine List.ext_getElem? fun i => ?_
  rw [List.getElem?_map, List.getElem?_map]
  have hlen' : tr.length = t.length - 1 := hlen
  by_cases hi : i < t.length - 1
  · rw [List.getElem?_range hi, List.getElem?_eq_getElem (by omega : i < tr.length)]
    obtain ⟨-, -, hl, t0, t1, e0, e1, e2, -, -⟩ := htr i tr[i] (List.getElem?_eq_getElem (by omega))
    have e0' : t[i]? = some t0 := e0
    have hlam : g.lam[i]? = some (lineDensity c t0 bSpac tOffs factBeam coast ppb σ) := by
      simp only [hg, List.getElem?_map, e0', Option.map_some]
    simp only [Option.map_some, hl, e2, hlam, Option.getD_some]
    rw [hget i t0 e0, hget (i + 1) t1 e1]
    congr 1
    push_cast
    ring
  · rw [List.getElem?_eq_none (by omega : tr.length ≤ i), List.getElem?_eq_none (by rw [List.length_range]; omega)]
    rfl

/-- the sum is the number of particles, up to the error -/
theorem steps_sum (c tOffs bSpac tEnd dt factBeam coast σ : ℝ) (ppb : List ℝ) (hc : 0 < c) (hdt : 0 < dt) (hb : 0 < bSpac) (hE : 0 ≤ tEnd)
    (hσ : 0 < σ) (hp : ∀ p ∈ ppb, 0 ≤ p)
    (hin : ∀ i < ppb.length, 0 < ppb.getD i 0 → 10 * σ ≤ c * (tOffs + (i : ℝ) * bSpac) ∧
      c * (tOffs + (i : ℝ) * bSpac) + 10 * σ ≤ c * ((ppb.length : ℝ) * bSpac + tEnd)) :
    |∑ k ∈ Finset.range ((timeGrid ppb.length bSpac tEnd dt).length - 1), c * lineDensity c ((k : ℝ) * dt) bSpac tOffs factBeam coast ppb σ * dt -
      (factBeam * ppb.sum + coast * (c * (((timeGrid ppb.length bSpac tEnd dt).length - 1 : ℕ) * dt)))| ≤
      |factBeam| * ppb.sum * chargeErr σ (c * dt) := by
  set t := timeGrid ppb.length bSpac tEnd dt with ht
  obtain ⟨h2, hget, -, hend, -⟩ := C64_time_grid ppb.length bSpac tEnd dt hdt hb hE
  rw [← ht] at h2 hget hend
  set n := t.length - 1 with hn
  have hcov : (ppb.length : ℝ) * bSpac + tEnd ≤ (n : ℝ) * dt := by
    obtain ⟨v, hv⟩ : ∃ v, t[t.length - 2]? = some v := ⟨_, List.getElem?_eq_getElem (by omega)⟩
    have h3 := hend v hv
    rw [hget _ v hv] at h3
    have h4 : ((t.length - 2 : ℕ) : ℝ) ≤ n := by
      have : t.length - 2 ≤ n := by omega
      exact_mod_cast this
    nlinarith
  have hsum : ppb.sum = ∑ i ∈ Finset.range ppb.length, ppb.getD i 0 := by
    rw [← sum_range_map]
    congr 1
    refine List.ext_getElem? fun i => ?_
    rw [List.getElem?_map]
    by_cases hi : i < ppb.length
    · rw [List.getElem?_range hi, List.getElem?_eq_getElem hi, Option.map_some, List.getD_eq_getElem _ _ hi]
    · rw [List.getElem?_eq_none (by omega), List.getElem?_eq_none (by simp; omega)]
      rfl
  have hnn : ∀ i ∈ Finset.range ppb.length, 0 ≤ ppb.getD i 0 := fun i hi => by
    have hi' : i < ppb.length := by simpa using hi
    rw [List.getD_eq_getElem _ _ hi']
    exact hp _ (List.getElem_mem hi')
  set U : ℕ → ℝ := fun i => c * dt * ∑ k ∈ Finset.range n,
    if |(k : ℝ) * (c * dt) - c * (tOffs + (i : ℝ) * bSpac)| < 10 * σ then
      1 / (σ * √(2 * π)) * rexp (-((k : ℝ) * (c * dt) - c * (tOffs + (i : ℝ) * bSpac)) ^ 2 / (2 * σ ^ 2)) else 0 with hU
  have hexp : ∑ k ∈ Finset.range n, c * lineDensity c ((k : ℝ) * dt) bSpac tOffs factBeam coast ppb σ * dt =
      factBeam * (∑ i ∈ Finset.range ppb.length, ppb.getD i 0 * U i) + coast * (c * ((n : ℝ) * dt)) := by
    have h1 : ∀ k ∈ Finset.range n, c * lineDensity c ((k : ℝ) * dt) bSpac tOffs factBeam coast ppb σ * dt =
        factBeam * (∑ i ∈ Finset.range ppb.length, ppb.getD i 0 * (c * dt *
          (if |(k : ℝ) * (c * dt) - c * (tOffs + (i : ℝ) * bSpac)| < 10 * σ then
            1 / (σ * √(2 * π)) * rexp (-((k : ℝ) * (c * dt) - c * (tOffs + (i : ℝ) * bSpac)) ^ 2 / (2 * σ ^ 2)) else 0))) +
          coast * (c * dt) := by
      intro k _
      rw [C65_bunch_train _ _ _ _ _ _ _ hσ _ hp, mul_add, add_mul]
      congr 1
      · rw [mul_left_comm, mul_assoc, Finset.mul_sum, Finset.sum_mul]
        congr 1
        refine Finset.sum_congr rfl fun i _ => ?_
        rw [gaussBunch, show c * ((k : ℝ) * dt) = (k : ℝ) * (c * dt) by ring]
        split_ifs
        · ring
        · ring
      · ring
    rw [Finset.sum_congr rfl h1, Finset.sum_add_distrib, ← Finset.mul_sum, Finset.sum_comm, Finset.sum_const, Finset.card_range, nsmul_eq_mul]
    congr 1
    · congr 1
      refine Finset.sum_congr rfl fun i _ => ?_
      rw [hU, ← Finset.mul_sum, ← Finset.mul_sum]
    · ring
  rw [hexp, hsum, show ∀ a b d e : ℝ, a * b + d - (a * e + d) = a * (b - e) from fun a b d e => by ring, abs_mul, mul_assoc]
  refine mul_le_mul_of_nonneg_left ?_ (abs_nonneg _)
  rw [← Finset.sum_sub_distrib, Finset.sum_mul]
  refine (Finset.abs_sum_le_sum_abs _ _).trans (Finset.sum_le_sum fun i hi => ?_)
  rw [show ppb.getD i 0 * U i - ppb.getD i 0 = ppb.getD i 0 * (U i - 1) by ring, abs_mul, abs_of_nonneg (hnn i hi)]
  rcases (hnn i hi).eq_or_lt with h0 | h0
  · rw [← h0, zero_mul, zero_mul]
  · obtain ⟨ha, hb'⟩ := hin i (by simpa using hi) h0
    refine mul_le_mul_of_nonneg_left (gauss_cut σ (c * dt) _ hσ (mul_pos hc hdt) n ha (hb'.trans ?_)) h0.le
    calc c * ((ppb.length : ℝ) * bSpac + tEnd) ≤ c * ((n : ℝ) * dt) := mul_le_mul_of_nonneg_left hcov hc.le
      _ = (n : ℝ) * (c * dt) := by ring

/-- **C177.** When a run goes over the steps of a bunched beam, line density times `c` times time step adds up to `fact_beam` times the
intensities of the filling pattern, up to the relative error `chargeErr`, plus the coasting beam, provided that every bunch lies with ten
lengths within the simulated time. -/
theorem C177_intensity (c tOffs bSpac tEnd dt factBeam coast σ : ℝ) (ppb : List ℝ) (hc : 0 < c) (hdt : 0 < dt) (hb : 0 < bSpac) (hE : 0 ≤ tEnd)
    (hσ : 0 < σ) (hp : ∀ p ∈ ppb, 0 ≤ p)
    (hin : ∀ i < ppb.length, 0 < ppb.getD i 0 → 10 * σ ≤ c * (tOffs + (i : ℝ) * bSpac) ∧
      c * (tOffs + (i : ℝ) * bSpac) + 10 * σ ≤ c * ((ppb.length : ℝ) * bSpac + tEnd)) (fuel : ℕ)
    (hfuel : (timeGrid ppb.length bSpac tEnd dt).length < fuel) :
    ∃ b N, runLoop ⟨timeGrid ppb.length bSpac tEnd dt, (timeGrid ppb.length bSpac tEnd dt).map
          (fun t => lineDensity c t bSpac tOffs factBeam coast ppb σ), bSpac, true⟩
        (fun b q => .ok (q + c * (b.lamCurr.getD 0) * (b.dtCurr.getD 0))) none fuel BeamSt.init 0 = .ok (b, N) ∧
      |N - (factBeam * ppb.sum + coast * (c * (((timeGrid ppb.length bSpac tEnd dt).length - 1 : ℕ) * dt)))| ≤
        |factBeam| * ppb.sum * chargeErr σ (c * dt) := by
  obtain ⟨b, hrun⟩ := run_sum c c tOffs bSpac tEnd dt factBeam coast σ ppb hdt hb hE fuel hfuel
  exact ⟨b, _, hrun, steps_sum c tOffs bSpac tEnd dt factBeam coast σ ppb hc hdt hb hE hσ hp hin⟩

/-- **C177**, the ions: over the run the gas ionisation asks for intensity times gas density times cross section electrons per metre, up to the
same relative error. -/
theorem C177_ions (kB pn sig tk c tOffs bSpac tEnd dt factBeam σ : ℝ) (ppb : List ℝ) (hc : 0 < c) (hdt : 0 < dt) (hb : 0 < bSpac) (hE : 0 ≤ tEnd)
    (hσ : 0 < σ) (hp : ∀ p ∈ ppb, 0 ≤ p)
    (hin : ∀ i < ppb.length, 0 < ppb.getD i 0 → 10 * σ ≤ c * (tOffs + (i : ℝ) * bSpac) ∧
      c * (tOffs + (i : ℝ) * bSpac) + 10 * σ ≤ c * ((ppb.length : ℝ) * bSpac + tEnd)) (fuel : ℕ)
    (hfuel : (timeGrid ppb.length bSpac tEnd dt).length < fuel) (hgas : 0 ≤ pn * 133.32 / 10 ^ 9 / (kB * tk) * (sig / 10 ^ 22)) :
    ∃ b N, runLoop ⟨timeGrid ppb.length bSpac tEnd dt, (timeGrid ppb.length bSpac tEnd dt).map
          (fun t => lineDensity c t bSpac tOffs factBeam 0 ppb σ), bSpac, true⟩
        (fun b q => .ok (q + gasIonRate kB c pn sig tk * (b.lamCurr.getD 0) * (b.dtCurr.getD 0))) none fuel BeamSt.init 0 = .ok (b, N) ∧
      |N - factBeam * ppb.sum * (pn * 133.32 / 10 ^ 9 / (kB * tk) * (sig / 10 ^ 22))| ≤
        |factBeam| * ppb.sum * (pn * 133.32 / 10 ^ 9 / (kB * tk) * (sig / 10 ^ 22)) * chargeErr σ (c * dt) := by
  obtain ⟨b, hrun⟩ := run_sum (gasIonRate kB c pn sig tk) c tOffs bSpac tEnd dt factBeam 0 σ ppb hdt hb hE fuel hfuel
  refine ⟨b, _, hrun, ?_⟩
  have hs := steps_sum c tOffs bSpac tEnd dt factBeam 0 σ ppb hc hdt hb hE hσ hp hin
  rw [zero_mul, add_zero] at hs
  have hr : gasIonRate kB c pn sig tk = pn * 133.32 / 10 ^ 9 / (kB * tk) * (sig / 10 ^ 22) * c := by
    unfold gasIonRate
    rw [show pn * (13332 / 100000000000) = pn * 133.32 / 10 ^ 9 by norm_num; ring, show sig * (1 / 10 ^ 22) = sig / 10 ^ 22 by ring]
  rw [hr]
  set w := pn * 133.32 / 10 ^ 9 / (kB * tk) * (sig / 10 ^ 22)
  rw [show (∑ k ∈ Finset.range ((timeGrid ppb.length bSpac tEnd dt).length - 1), w * c * lineDensity c ((k : ℝ) * dt) bSpac tOffs factBeam 0 ppb σ * dt) -
      factBeam * ppb.sum * w = w * ((∑ k ∈ Finset.range ((timeGrid ppb.length bSpac tEnd dt).length - 1),
        c * lineDensity c ((k : ℝ) * dt) bSpac tOffs factBeam 0 ppb σ * dt) - factBeam * ppb.sum) by
    rw [mul_sub, Finset.mul_sum]
    congr 1
    · exact Finset.sum_congr rfl fun k _ => by ring
    · ring, abs_mul, abs_of_nonneg hgas]
  calc w * _ ≤ w * (|factBeam| * ppb.sum * chargeErr σ (c * dt)) := mul_le_mul_of_nonneg_left hs hgas
    _ = _ := by ring

/-- **C177**, the size of the error: with two steps or more per bunch length the relative error is below `10⁻²⁰`. -/
theorem C177_error (σ h : ℝ) (hh : 0 < h) (hsmall : 2 * h ≤ σ) : 0 ≤ chargeErr σ h ∧ chargeErr σ h ≤ 1 / 10 ^ 20 := by
  have hσ : 0 < σ := by linarith
  have hratio : 2 ≤ σ / h := by rw [le_div_iff₀ hh]; exact hsmall
  have hratio' : h / σ ≤ 1 / 2 := by rw [div_le_iff₀ hσ]; linarith
  have hr0 : 0 < h / σ := by positivity
  have h50 : rexp (-50) ≤ 1 / 10 ^ 21 := by
    rw [Real.exp_neg, ← one_div]
    refine one_div_le_one_div_of_le (by positivity) ?_
    have h1 : (2.7 : ℝ) ≤ rexp 1 := by
      have := Real.exp_one_gt_d9
      norm_num at this ⊢
      linarith
    calc (10 : ℝ) ^ 21 ≤ 2.7 ^ 50 := by norm_num
      _ ≤ rexp 1 ^ 50 := pow_le_pow_left₀ (by norm_num) h1 50
      _ = rexp 50 := by rw [← Real.exp_nat_mul]; norm_num
  have hexp : -2 * π ^ 2 * (σ / h) ^ 2 ≤ -50 := by
    have h1 : (3 : ℝ) ≤ π := Real.pi_gt_three.le
    have h2 : 9 ≤ π ^ 2 := by nlinarith
    have h3 : 4 ≤ (σ / h) ^ 2 := by nlinarith
    nlinarith
  have hq : rexp (-2 * π ^ 2 * (σ / h) ^ 2) ≤ 1 / 10 ^ 21 := (Real.exp_le_exp.2 hexp).trans h50
  have hq0 := Real.exp_pos (-2 * π ^ 2 * (σ / h) ^ 2)
  have he0 := Real.exp_pos (-50)
  unfold chargeErr
  set q := rexp (-2 * π ^ 2 * (σ / h) ^ 2)
  have h1q : 1 / 2 ≤ 1 - q := by
    have : (1 : ℝ) / 10 ^ 21 ≤ 1 / 2 := by norm_num
    linarith
  have hfrac : 2 * q / (1 - q) ≤ 4 * q := by
    rw [div_le_iff₀ (by linarith)]
    nlinarith
  constructor
  · have : 0 ≤ 2 * q / (1 - q) := div_nonneg (by linarith) (by linarith)
    positivity
  · have h2 : rexp (-50) * (h / σ + 1 / 10) ≤ 1 / 10 ^ 21 * 1 := mul_le_mul h50 (by linarith) (by positivity) (by positivity)
    have h3 : (4 : ℝ) * (1 / 10 ^ 21) + 1 / 10 ^ 21 * 1 ≤ 1 / 10 ^ 20 := by norm_num
    linarith

/-- **C177**, photoelectrons: for any sizes `ref k` of the macroparticles in the steps, the mean number of photoelectrons created over the run is
`k_pe_st` times the intensity, up to the same relative error. -/
theorem C177_photoelectrons (kpe c tOffs bSpac tEnd dt factBeam σ : ℝ) (ppb : List ℝ) (ref : ℕ → ℝ) (hk : 0 ≤ kpe) (hf : 0 ≤ factBeam)
    (href : ∀ k, 0 < ref k) (hc : 0 < c) (hdt : 0 < dt) (hb : 0 < bSpac) (hE : 0 ≤ tEnd) (hσ : 0 < σ) (hp : ∀ p ∈ ppb, 0 ≤ p)
    (hin : ∀ i < ppb.length, 0 < ppb.getD i 0 → 10 * σ ≤ c * (tOffs + (i : ℝ) * bSpac) ∧
      c * (tOffs + (i : ℝ) * bSpac) + 10 * σ ≤ c * ((ppb.length : ℝ) * bSpac + tEnd)) :
    |∑ k ∈ Finset.range ((timeGrid ppb.length bSpac tEnd dt).length - 1), (∫ u in (0 : ℝ)..1,
        ((photoCount (kpe * c) none (lineDensity c ((k : ℝ) * dt) bSpac tOffs factBeam 0 ppb σ) dt (ref k) u : ℤ) : ℝ)) * ref k -
      kpe * (factBeam * ppb.sum)| ≤ kpe * (factBeam * ppb.sum) * chargeErr σ (c * dt) := by
  have hs := steps_sum c tOffs bSpac tEnd dt factBeam 0 σ ppb hc hdt hb hE hσ hp hin
  rw [zero_mul, add_zero, abs_of_nonneg hf] at hs
  have hterm : ∀ k ∈ Finset.range ((timeGrid ppb.length bSpac tEnd dt).length - 1), (∫ u in (0 : ℝ)..1,
        ((photoCount (kpe * c) none (lineDensity c ((k : ℝ) * dt) bSpac tOffs factBeam 0 ppb σ) dt (ref k) u : ℤ) : ℝ)) * ref k =
      kpe * (c * lineDensity c ((k : ℝ) * dt) bSpac tOffs factBeam 0 ppb σ * dt) := by
    intro k _
    have h0 := (C65_bounds c ((k : ℝ) * dt) bSpac tOffs factBeam 0 σ hσ hf ppb hp).1
    rw [C67_photo_rounding_unbiased]
    · show kpe * c * lineDensity c ((k : ℝ) * dt) bSpac tOffs factBeam 0 ppb σ * dt / ref k * ref k = _
      rw [div_mul_cancel₀ _ (href k).ne']
      ring
    · show 0 ≤ kpe * c * lineDensity c ((k : ℝ) * dt) bSpac tOffs factBeam 0 ppb σ * dt / ref k
      have := href k
      positivity
  rw [Finset.sum_congr rfl hterm, ← Finset.mul_sum, ← mul_sub, abs_mul, abs_of_nonneg hk, mul_assoc]
  exact mul_le_mul_of_nonneg_left hs hk

/-- **C177**, continuous emission of photoelectrons: with the mean line density the number is smaller by one part in the number of times. -/
theorem C177_continuous (kpe c tOffs bSpac tEnd dt factBeam σ : ℝ) (ppb : List ℝ) (ref : ℕ → ℝ) (hk : 0 ≤ kpe) (hf : 0 ≤ factBeam)
    (href : ∀ k, 0 < ref k) (hc : 0 < c) (hdt : 0 < dt) (hb : 0 < bSpac) (hE : 0 ≤ tEnd) (hσ : 0 < σ) (hp : ∀ p ∈ ppb, 0 ≤ p)
    (hin : ∀ i < ppb.length, 10 * σ ≤ c * (tOffs + (i : ℝ) * bSpac) ∧
      c * (tOffs + (i : ℝ) * bSpac) + 10 * σ ≤ c * ((ppb.length : ℝ) * bSpac + tEnd)) (Nt : ℕ)
    (hNt : Nt = (timeGrid ppb.length bSpac tEnd dt).length) (lam : ℕ → ℝ)
    (hlam : ∀ k : ℕ, lam k = lineDensity c ((k : ℝ) * dt) bSpac tOffs factBeam 0 ppb σ) :
    |∑ k ∈ Finset.range (Nt - 1), (∫ u in (0 : ℝ)..1,
        ((photoCount (kpe * c) (some ((∑ j ∈ Finset.range Nt, lam j) / (Nt : ℝ))) (lam k) dt (ref k) u : ℤ) : ℝ)) * ref k -
      (1 - 1 / (Nt : ℝ)) * (kpe * (factBeam * ppb.sum))| ≤ kpe * (factBeam * ppb.sum) * chargeErr σ (c * dt) := by
  have hs := steps_sum c tOffs bSpac tEnd dt factBeam 0 σ ppb hc hdt hb hE hσ hp fun i hi _ => hin i hi
  rw [zero_mul, add_zero, abs_of_nonneg hf, ← hNt] at hs
  obtain ⟨h2, hget, -, hend, -⟩ := C64_time_grid ppb.length bSpac tEnd dt hdt hb hE
  rw [← hNt] at h2
  obtain ⟨n, rfl⟩ : ∃ n, Nt = n + 1 := ⟨Nt - 1, by omega⟩
  have hn : n + 1 - 1 = n := rfl
  rw [hn] at hs ⊢
  have hcov : (ppb.length : ℝ) * bSpac + tEnd ≤ (n : ℝ) * dt := by
    obtain ⟨v, hv⟩ : ∃ v, (timeGrid ppb.length bSpac tEnd dt)[(timeGrid ppb.length bSpac tEnd dt).length - 2]? = some v :=
      ⟨_, List.getElem?_eq_getElem (by omega)⟩
    have h3 := hend v hv
    rw [hget _ v hv] at h3
    have h4 : (((timeGrid ppb.length bSpac tEnd dt).length - 2 : ℕ) : ℝ) ≤ n := by
      have : (timeGrid ppb.length bSpac tEnd dt).length - 2 ≤ n := by omega
      exact_mod_cast this
    nlinarith
  have hlast : lam n = 0 := by
    rw [hlam]
    refine (C65_bounds c ((n : ℝ) * dt) bSpac tOffs factBeam 0 σ hσ hf ppb hp).2 fun i hi => ?_
    have h1 := (hin i hi).2
    have h3 : c * ((ppb.length : ℝ) * bSpac + tEnd) ≤ c * ((n : ℝ) * dt) := mul_le_mul_of_nonneg_left hcov hc.le
    exact le_trans (by linarith) (le_abs_self _)
  have hnn : ∀ k, 0 ≤ lam k := fun k => by
    rw [hlam]
    exact (C65_bounds c ((k : ℝ) * dt) bSpac tOffs factBeam 0 σ hσ hf ppb hp).1
  set S := ∑ j ∈ Finset.range n, lam j with hS
  have hS0 : 0 ≤ S := Finset.sum_nonneg fun k _ => hnn k
  have hmean : ∑ j ∈ Finset.range (n + 1), lam j = S := by rw [Finset.sum_range_succ, hlast, add_zero]
  have hn0 : (0 : ℝ) < ((n + 1 : ℕ) : ℝ) := by positivity
  have hterm : ∀ k ∈ Finset.range n, (∫ u in (0 : ℝ)..1,
        ((photoCount (kpe * c) (some ((∑ j ∈ Finset.range (n + 1), lam j) / ((n + 1 : ℕ) : ℝ))) (lam k) dt (ref k) u : ℤ) : ℝ)) * ref k =
      kpe * (c * (S / ((n + 1 : ℕ) : ℝ)) * dt) := by
    intro k _
    rw [hmean, C67_photo_rounding_unbiased]
    · show kpe * c * (S / ((n + 1 : ℕ) : ℝ)) * dt / ref k * ref k = _
      rw [div_mul_cancel₀ _ (href k).ne']
      ring
    · show 0 ≤ kpe * c * (S / ((n + 1 : ℕ) : ℝ)) * dt / ref k
      have := href k
      positivity
  have hsum : ∑ k ∈ Finset.range n, c * lineDensity c ((k : ℝ) * dt) bSpac tOffs factBeam 0 ppb σ * dt = c * S * dt := by
    rw [hS, Finset.mul_sum, Finset.sum_mul]
    exact Finset.sum_congr rfl fun k _ => by rw [hlam]
  rw [hsum] at hs
  rw [Finset.sum_congr rfl hterm, Finset.sum_const, Finset.card_range, nsmul_eq_mul]
  have hfr : 1 - 1 / ((n + 1 : ℕ) : ℝ) = (n : ℝ) / ((n + 1 : ℕ) : ℝ) := by
    rw [eq_div_iff hn0.ne', sub_mul, one_div, inv_mul_cancel₀ hn0.ne']
    push_cast
    ring
  have hfr0 : 0 ≤ (n : ℝ) / ((n + 1 : ℕ) : ℝ) := by positivity
  have hfr1 : (n : ℝ) / ((n + 1 : ℕ) : ℝ) ≤ 1 := by
    rw [div_le_one hn0]
    push_cast
    linarith
  rw [hfr, show (n : ℝ) * (kpe * (c * (S / ((n + 1 : ℕ) : ℝ)) * dt)) - (n : ℝ) / ((n + 1 : ℕ) : ℝ) * (kpe * (factBeam * ppb.sum)) =
      (n : ℝ) / ((n + 1 : ℕ) : ℝ) * (kpe * (c * S * dt - factBeam * ppb.sum)) by ring, abs_mul, abs_mul, abs_of_nonneg hfr0, abs_of_nonneg hk, mul_assoc kpe]
  calc (n : ℝ) / ((n + 1 : ℕ) : ℝ) * (kpe * |c * S * dt - factBeam * ppb.sum|)
      ≤ 1 * (kpe * |c * S * dt - factBeam * ppb.sum|) := mul_le_mul_of_nonneg_right hfr1 (mul_nonneg hk (abs_nonneg _))
    _ ≤ kpe * (factBeam * ppb.sum * chargeErr σ (c * dt)) := by
      rw [one_mul]
      exact mul_le_mul_of_nonneg_left hs hk

/-- The beam of the LHC: bunches of 7.5 cm in slots of 25 ns, offset 2.5 ns, steps of 25 ps. The bunches meet the hypotheses, and the error is
negligible. -/
example : (∀ i < ([1.1e11, 0, 1.1e11] : List ℝ).length, 0 < ([1.1e11, 0, 1.1e11] : List ℝ).getD i 0 →
      10 * (0.0749 : ℝ) ≤ 299792458 * (2.5e-9 + (i : ℝ) * 25e-9) ∧
      299792458 * (2.5e-9 + (i : ℝ) * 25e-9) + 10 * 0.0749 ≤ 299792458 * ((([1.1e11, 0, 1.1e11] : List ℝ).length : ℝ) * 25e-9 + 0)) ∧
    chargeErr 0.0749 (299792458 * 25e-12) ≤ 1 / 10 ^ 20 := by
  refine ⟨fun i hi _ => ?_, (C177_error 0.0749 (299792458 * 25e-12) (by norm_num) (by norm_num)).2⟩
  have hi' : i < 3 := hi
  interval_cases i <;> norm_num

end PyECLOUD
