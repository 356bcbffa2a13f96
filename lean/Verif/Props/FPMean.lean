import Verif.Props.FPYield
import Mathlib.Analysis.SpecialFunctions.Exponential

/-!
# The mean number of electrons emitted by the Furman-Pivi model (C92)
-/

namespace PyECLOUD

open Real

/-! ## the Poisson law -/

theorem poissonP_nonneg (lam : ℝ) (h : 0 ≤ lam) (n : ℕ) : 0 ≤ poissonP lam n := by unfold poissonP; positivity

theorem poissonP_pos (lam : ℝ) (h : 0 < lam) (n : ℕ) : 0 < poissonP lam n := by unfold poissonP; positivity

theorem poissonP_hasSum (lam : ℝ) : HasSum (poissonP lam) 1 := by
  have h := NormedSpace.expSeries_div_hasSum_exp (𝔸 := ℝ) lam
  rw [← Real.exp_eq_exp_ℝ] at h
  have h2 := h.mul_left (exp (-lam))
  rw [← Real.exp_add, neg_add_cancel, Real.exp_zero] at h2
  have e : poissonP lam = fun n : ℕ => exp (-lam) * (lam ^ n / (n.factorial : ℝ)) := by
    funext n
    unfold poissonP
    ring
  rw [e]
  exact h2

theorem poissonP_succ (lam : ℝ) (n : ℕ) : poissonP lam (n + 1) * ((n + 1 : ℕ) : ℝ) = lam * poissonP lam n := by
  unfold poissonP
  rw [Nat.factorial_succ, pow_succ]
  push_cast
  have h : ((n : ℝ) + 1) ≠ 0 := by positivity
  field_simp

/-- mean of the Poisson law -/
theorem poissonP_mean (lam : ℝ) : HasSum (fun n : ℕ => poissonP lam n * (n : ℝ)) lam := by
  have h : HasSum (fun n : ℕ => poissonP lam (n + 1) * ((n + 1 : ℕ) : ℝ)) lam := by
    have e : (fun n : ℕ => poissonP lam (n + 1) * ((n + 1 : ℕ) : ℝ)) = fun n => lam * poissonP lam n :=
      funext (poissonP_succ lam)
    rw [e]
    simpa using (poissonP_hasSum lam).mul_left lam
  have h2 := (hasSum_nat_add_iff (f := fun n : ℕ => poissonP lam n * (n : ℝ)) 1).1 h
  simpa using h2

theorem poissonMean_const (lam c : ℝ) (n : ℕ) : poissonMean lam n (fun _ => c) = c := by
  induction n with
  | zero => rfl
  | succ n ih =>
    show ∑' d : ℕ, poissonP lam d * poissonMean lam n (fun _ => c) = c
    rw [ih, tsum_mul_right, (poissonP_hasSum lam).tsum_eq, one_mul]

/-- the part of the mean below the cut -/
noncomputable def lowMean (lam : ℝ) (m : ℕ) : ℝ := ∑ n ∈ Finset.range (m + 1), poissonP lam n * (n : ℝ)

/-- mean of a function that is the number itself up to the cut and constant above -/
theorem mean_cut (lam : ℝ) (m : ℕ) (b : ℝ) (f : ℕ → ℝ) (h1 : ∀ n ≤ m, f n = n) (h2 : ∀ n, m < n → f n = b) :
    ∑' d : ℕ, poissonP lam d * f d = lowMean lam m + poissonTail lam (m + 1) * b := by
  have hs : Summable (fun d : ℕ => poissonP lam (d + (m + 1)) * f (d + (m + 1))) := by
    have e : (fun d : ℕ => poissonP lam (d + (m + 1)) * f (d + (m + 1))) = fun d => poissonP lam (d + (m + 1)) * b :=
      funext (fun d => by rw [h2 _ (by omega)])
    rw [e]
    exact ((summable_nat_add_iff (m + 1)).2 (poissonP_hasSum lam).summable).mul_right b
  have hs' := (summable_nat_add_iff (f := fun d : ℕ => poissonP lam d * f d) (m + 1)).1 hs
  rw [← hs'.sum_add_tsum_nat_add (m + 1)]
  congr 1
  · unfold lowMean
    refine Finset.sum_congr rfl (fun n hn => ?_)
    rw [h1 n (by have := Finset.mem_range.1 hn; omega)]
  · unfold poissonTail
    rw [← tsum_mul_right]
    exact tsum_congr (fun d => by rw [h2 _ (by omega)])

theorem lowMean_eq (lam : ℝ) (m : ℕ) : lam = lowMean lam m + lam * poissonTail lam m := by
  have h := (poissonP_mean lam).summable.sum_add_tsum_nat_add (m + 1)
  rw [(poissonP_mean lam).tsum_eq] at h
  have e : ∑' n : ℕ, poissonP lam (n + (m + 1)) * ((n + (m + 1) : ℕ) : ℝ) = lam * poissonTail lam m := by
    unfold poissonTail
    rw [← tsum_mul_left]
    exact tsum_congr (fun n => poissonP_succ lam (n + m))
  rw [e] at h
  exact h.symm

theorem tail_summable (lam : ℝ) (m : ℕ) : Summable (fun n : ℕ => poissonP lam (n + m)) :=
  (summable_nat_add_iff m).2 (poissonP_hasSum lam).summable

theorem tail_nonneg (lam : ℝ) (h : 0 ≤ lam) (m : ℕ) : 0 ≤ poissonTail lam m := tsum_nonneg (fun n => poissonP_nonneg lam h _)

theorem tail_pos (lam : ℝ) (h : 0 < lam) (m : ℕ) : 0 < poissonTail lam m :=
  (tail_summable lam m).tsum_pos (fun n => poissonP_nonneg lam h.le _) 0 (poissonP_pos lam h _)

theorem tail_markov (lam : ℝ) (h : 0 ≤ lam) (m : ℕ) : ((m : ℝ) + 1) * poissonTail lam (m + 1) ≤ lam * poissonTail lam m := by
  have e : ∑' n : ℕ, poissonP lam (n + (m + 1)) * ((n + (m + 1) : ℕ) : ℝ) = lam * poissonTail lam m := by
    unfold poissonTail
    rw [← tsum_mul_left]
    exact tsum_congr (fun n => poissonP_succ lam (n + m))
  rw [← e]
  unfold poissonTail
  rw [← tsum_mul_left]
  refine Summable.tsum_le_tsum (fun n => ?_) ((tail_summable lam (m + 1)).mul_left _) ?_
  · rw [mul_comm]
    refine mul_le_mul_of_nonneg_left ?_ (poissonP_nonneg lam h _)
    push_cast
    have : (0 : ℝ) ≤ n := Nat.cast_nonneg n
    linarith
  · exact (summable_nat_add_iff (f := fun n : ℕ => poissonP lam n * (n : ℝ)) (m + 1)).2 (poissonP_mean lam).summable

theorem lowMean_le (lam : ℝ) (h : 0 ≤ lam) (m : ℕ) : lowMean lam m ≤ (m : ℝ) * (1 - poissonTail lam (m + 1)) := by
  have h1 := (poissonP_hasSum lam).summable.sum_add_tsum_nat_add (m + 1)
  rw [(poissonP_hasSum lam).tsum_eq] at h1
  have h2 : ∑ n ∈ Finset.range (m + 1), poissonP lam n = 1 - poissonTail lam (m + 1) := by
    unfold poissonTail
    linarith
  rw [← h2, Finset.mul_sum]
  unfold lowMean
  refine Finset.sum_le_sum (fun n hn => ?_)
  rw [mul_comm]
  refine mul_le_mul_of_nonneg_right ?_ (poissonP_nonneg lam h n)
  exact_mod_cast (by have := Finset.mem_range.1 hn; omega : n ≤ m)

theorem lowMean_nonneg (lam : ℝ) (h : 0 ≤ lam) (m : ℕ) : 0 ≤ lowMean lam m :=
  Finset.sum_nonneg (fun n _ => mul_nonneg (poissonP_nonneg lam h n) (Nat.cast_nonneg n))

/-! ## the truncation loop on one number -/

/-- the number in the end, `f` iterations before the last one, from number `n` with the draws `l` still to come -/
def cutEnd (m : ℕ) : ℕ → ℕ → List ℕ → ℕ
  | 0, n, _ => n
  | f + 1, n, l => if n ≤ m then n else cutEnd m f (if f = 0 then min (l.getD 0 0) m else l.getD 0 0) l.tail

theorem poissonCut_cutEnd (m : ℕ) (l : List ℕ) (f : ℕ) (hf : f ≤ 12) (n : ℕ) (h0 : f = 0 → n ≤ m) :
    poissonCut m (fun a _ => l.getD (a + 1) 0) f (12 - f) [n] = .ok [cutEnd m f n (l.drop (13 - f))] := by
  induction f generalizing n with
  | zero =>
    unfold poissonCut
    rw [if_pos (by simpa using h0 rfl)]
    rfl
  | succ f ih =>
    unfold poissonCut
    by_cases hn : n ≤ m
    · rw [if_pos (by simpa using hn)]
      simp [cutEnd, hn]
    · rw [if_neg (by simpa using hn)]
      have e : 12 - (f + 1) + 1 = 12 - f := by omega
      simp only [List.mapIdx_cons, List.mapIdx_nil, not_le.1 hn, gt_iff_lt, if_true, e]
      have hd : ∀ a : ℕ, l.getD (12 - (f + 1) + 1) 0 = (l.drop (13 - (f + 1))).getD 0 0 := by
        intro a
        have : 12 - (f + 1) + 1 = 13 - (f + 1) := by omega
        rw [this]
        simp [List.getD_eq_getElem?_getD]
      have ht : l.drop (13 - f) = (l.drop (13 - (f + 1))).tail := by
        rw [List.tail_drop]
        congr 1
        omega
      by_cases hz : f = 0
      · subst hz
        rw [if_pos (by omega)]
        rw [ih (by omega) _ (fun _ => min_le_right _ _), ht]
        simp only [cutEnd, hn, if_false, if_true]
        rw [← hd 0]
      · rw [if_neg (by omega)]
        rw [ih (by omega) _ (fun h => absurd h hz), ht]
        simp only [cutEnd, hn, if_false, hz]
        rw [← hd 0, e]

/-- mean result of the loop from a number above the cut -/
noncomputable def cutMean (lam : ℝ) (m : ℕ) : ℕ → ℝ
  | 0 => m
  | f + 1 => lowMean lam m + poissonTail lam (m + 1) * cutMean lam m f

theorem poissonMean_low (lam : ℝ) (m f n : ℕ) (h : n ≤ m) : poissonMean lam f (fun l => (cutEnd m f n l : ℝ)) = n := by
  have e : (fun l : List ℕ => (cutEnd m f n l : ℝ)) = fun _ => (n : ℝ) := by
    funext l
    cases f <;> simp [cutEnd, h]
  rw [e, poissonMean_const]

theorem poissonMean_high (lam : ℝ) (m f n : ℕ) (h : m < n) :
    poissonMean lam (f + 1) (fun l => (cutEnd m (f + 1) n l : ℝ)) = cutMean lam m (f + 1) := by
  induction f generalizing n with
  | zero =>
    show ∑' d : ℕ, poissonP lam d * ((cutEnd m 1 n [d] : ℕ) : ℝ) = _
    refine mean_cut lam m m _ (fun d hd => ?_) (fun d hd => ?_)
    · simp [cutEnd, not_le.2 h, hd]
    · simp [cutEnd, not_le.2 h, hd.le]
  | succ f ih =>
    show ∑' d : ℕ, poissonP lam d * poissonMean lam (f + 1) (fun l => ((cutEnd m (f + 2) n (d :: l) : ℕ) : ℝ)) = _
    have e : ∀ d : ℕ, (fun l : List ℕ => ((cutEnd m (f + 2) n (d :: l) : ℕ) : ℝ)) = fun l => ((cutEnd m (f + 1) d l : ℕ) : ℝ) := by
      intro d
      funext l
      have : cutEnd m (f + 2) n (d :: l) = cutEnd m (f + 1) d l := by
        rw [cutEnd, if_neg (not_le.2 h), if_neg (by omega)]
        rfl
      rw [this]
    simp only [e]
    exact mean_cut lam m _ _ (fun d hd => poissonMean_low lam m _ d hd) (fun d hd => ih d hd)

/-- mean result of the whole loop -/
theorem poissonMean_cut (lam : ℝ) (m : ℕ) :
    poissonMean lam 13 (fun l => ((cutEnd m 12 (l.getD 0 0) (l.drop 1) : ℕ) : ℝ)) = cutMean lam m 13 := by
  show ∑' d : ℕ, poissonP lam d * poissonMean lam 12 (fun l => ((cutEnd m 12 d l : ℕ) : ℝ)) = _
  exact mean_cut lam m _ _ (fun d hd => poissonMean_low lam m _ d hd) (fun d hd => poissonMean_high lam m 11 d hd)

theorem cutMean_le (lam : ℝ) (h : 0 ≤ lam) (m f : ℕ) : 0 ≤ cutMean lam m f ∧ cutMean lam m f ≤ m := by
  induction f with
  | zero => exact ⟨Nat.cast_nonneg m, le_rfl⟩
  | succ f ih =>
    have a := lowMean_le lam h m
    have b := tail_nonneg lam h (m + 1)
    have c := mul_le_mul_of_nonneg_left ih.2 b
    refine ⟨add_nonneg (lowMean_nonneg lam h m) (mul_nonneg b ih.1), ?_⟩
    show lowMean lam m + poissonTail lam (m + 1) * cutMean lam m f ≤ m
    nlinarith

/-- bounds of the mean number -/
theorem cutMean_bounds (lam : ℝ) (h : 0 ≤ lam) (m f : ℕ) :
    lam - lam * poissonTail lam m ≤ cutMean lam m (f + 1) ∧ cutMean lam m (f + 1) ≤ lam ∧ (0 < lam → cutMean lam m (f + 1) < lam) := by
  have a := lowMean_eq lam m
  have b := tail_nonneg lam h (m + 1)
  have c := mul_le_mul_of_nonneg_left (cutMean_le lam h m f).2 b
  have d := tail_markov lam h m
  have e := mul_nonneg b (cutMean_le lam h m f).1
  have g : cutMean lam m (f + 1) = lowMean lam m + poissonTail lam (m + 1) * cutMean lam m f := rfl
  rw [g]
  refine ⟨by linarith, by nlinarith, fun hp => ?_⟩
  have := tail_pos lam hp (m + 1)
  nlinarith

/-! ## C92 -/

theorem mean_event (a b : ℝ) (ha : 0 ≤ a) (ha1 : a < 1) :
    ∫ u in (0 : ℝ)..1, (if a < u then b else 1) = a + (1 - a) * b := by
  have e1 : ∫ u in (0 : ℝ)..1, (if a < u then b else 1) = ∫ u in (0 : ℝ)..1, (if u < a then 1 else b) := by
    refine intervalIntegral.integral_congr_ae ?_
    have : ∀ᵐ u : ℝ, u ≠ a := by simp [MeasureTheory.ae_iff]
    filter_upwards [this] with u hu _
    rcases lt_or_gt_of_ne hu with h | h
    · simp [h, not_lt.2 h.le]
    · simp [h, not_lt.2 h.le]
  rw [e1, average_two a 1 _ ha ha1.le]
  ring

/-- the mean number in closed form -/
theorem fpMeanNumber_eq (excl : Bool) (m : ℕ) (de dr dts : ℝ) (h0 : 0 ≤ de) (hr : 0 ≤ dr) (h1 : de + dr < 1) :
    fpMeanNumber excl m de dr dts = (if excl then de else de + dr) +
      (1 - (if excl then de else de + dr)) * cutMean (deltaPrime excl de dr dts) m 13 := by
  rw [← mean_event _ _ (by cases excl <;> simp <;> linarith) (by cases excl <;> simp <;> linarith)]
  unfold fpMeanNumber
  congr 1
  funext u
  have hk : fpKind excl de dr u = .true' ↔ (if excl then de else de + dr) < u := by
    cases excl with
    | true => by_cases h : de < u <;> simp [fpKind, h]
    | false => by_cases h : de + dr < u <;> by_cases h2 : u < de <;> simp [fpKind, h, h2]
  have e : ∀ l : List ℕ, fpNumber excl m de dr u l = .ok (if (if excl then de else de + dr) < u then
      cutEnd m 12 (l.getD 0 0) (l.drop 1) else 1) := by
    intro l
    unfold fpNumber
    by_cases h : (if excl then de else de + dr) < u
    · have := poissonCut_cutEnd m l 12 le_rfl (l.getD 0 0) (fun h => by omega)
      rw [if_pos (hk.2 h), if_pos h]
      simp only [Nat.sub_self] at this
      rw [this]
      simp [Except.map]
    · rw [if_neg (fun h' => h (hk.1 h')), if_neg h]
  simp only [e]
  by_cases h : (if excl then de else de + dr) < u
  · simp only [h, if_true]
    exact poissonMean_cut _ m
  · simp only [h, if_false, Nat.cast_one]
    exact poissonMean_const _ 1 13

/-- **C92** up to the truncation of the Poisson numbers at `M_cut`: averaged over the draws, an impact emits at most
`delta_e + delta_r + delta_ts` electrons (without rediffused electrons `delta_e + delta_ts`), and less than that by at most the
fraction of the true secondary yield that is the probability of a Poisson number of at least `M_cut`. The loop ends for all
draws. -/
theorem C92_mean_yield_partial (excl : Bool) (m : ℕ) (de dr dts : ℝ) (h0 : 0 ≤ de) (hr : 0 ≤ dr) (h1 : de + dr < 1)
    (ht : 0 ≤ dts) :
    (∀ u l, ∃ n, fpNumber excl m de dr u l = .ok n) ∧
    fpMeanNumber excl m de dr dts ≤ de + (if excl then 0 else dr) + dts ∧
    de + (if excl then 0 else dr) + dts - dts * poissonTail (dts / (1 - (de + if excl then 0 else dr))) m ≤
      fpMeanNumber excl m de dr dts := by
  have ed : deltaPrime excl de dr dts = dts / (1 - (de + if excl then 0 else dr)) := by
    cases excl <;> simp [deltaPrime, sub_sub]
  have ei : (if excl then de else de + dr) = de + (if excl then 0 else dr) := by cases excl <;> simp
  have hp : 0 < 1 - (de + if excl then 0 else dr) := by cases excl <;> simp <;> linarith
  have hl : 0 ≤ deltaPrime excl de dr dts := by rw [ed]; positivity
  have em : (1 - (de + if excl then 0 else dr)) * deltaPrime excl de dr dts = dts := by
    rw [ed]
    field_simp
  obtain ⟨b1, b2, -⟩ := cutMean_bounds (deltaPrime excl de dr dts) hl m 12
  rw [fpMeanNumber_eq excl m de dr dts h0 hr h1, ei, ← ed]
  refine ⟨fun u l => ?_, ?_, ?_⟩
  · unfold fpNumber
    split
    · have := poissonCut_cutEnd m l 12 le_rfl (l.getD 0 0) (fun h => by omega)
      simp only [Nat.sub_self] at this
      rw [this]
      exact ⟨_, rfl⟩
    · exact ⟨_, rfl⟩
  · have := mul_le_mul_of_nonneg_left b2 hp.le
    linarith
  · have := mul_le_mul_of_nonneg_left b1 hp.le
    have e2 : (1 - (de + if excl then 0 else dr)) * (deltaPrime excl de dr dts -
        deltaPrime excl de dr dts * poissonTail (deltaPrime excl de dr dts) m) =
        dts - dts * poissonTail (deltaPrime excl de dr dts) m := by
      rw [mul_sub, ← mul_assoc, em]
    linarith

/-- **C92** itself fails whenever there are true secondaries: the truncation makes the mean strictly smaller than the yield. -/
theorem C92_violated (excl : Bool) (m : ℕ) (de dr dts : ℝ) (h0 : 0 ≤ de) (hr : 0 ≤ dr) (h1 : de + dr < 1) (ht : 0 < dts) :
    fpMeanNumber excl m de dr dts < de + (if excl then 0 else dr) + dts := by
  have ed : deltaPrime excl de dr dts = dts / (1 - (de + if excl then 0 else dr)) := by
    cases excl <;> simp [deltaPrime, sub_sub]
  have ei : (if excl then de else de + dr) = de + (if excl then 0 else dr) := by cases excl <;> simp
  have hp : 0 < 1 - (de + if excl then 0 else dr) := by cases excl <;> simp <;> linarith
  have hl : 0 < deltaPrime excl de dr dts := by rw [ed]; positivity
  have em : (1 - (de + if excl then 0 else dr)) * deltaPrime excl de dr dts = dts := by
    rw [ed]
    field_simp
  have b := (cutMean_bounds (deltaPrime excl de dr dts) hl.le m 12).2.2 hl
  rw [fpMeanNumber_eq excl m de dr dts h0 hr h1, ei]
  have := mul_lt_mul_of_pos_left b hp
  linarith

/-- copper at the peak energy, normal incidence: the hypotheses hold with a positive true secondary yield -/
example : fpMeanNumber false 10 (fpDeltaE fpCopper 276.8 1) (fpDeltaR fpCopper 276.8 1) 1.8848 <
    fpDeltaE fpCopper 276.8 1 + fpDeltaR fpCopper 276.8 1 + 1.8848 := by
  obtain ⟨h1, h2, h3⟩ := fpCopper_sum 276.8 (by norm_num)
  have := C92_violated false 10 _ _ 1.8848 h1 h2 h3 (by norm_num)
  simpa using this

end PyECLOUD
