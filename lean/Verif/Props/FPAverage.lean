import Verif.Props.FPHelpers

/-!
# Property C136, the average spectrum of true secondaries
-/

namespace PyECLOUD

open Real

/-- A quadrature rule: weights that depend on the grid alone. -/
def IsQuadrature (simps : List ℝ → List ℝ → ℝ) : Prop :=
  ∃ w : List ℝ → List ℝ, (∀ x, (w x).length = x.length) ∧ ∀ x y, y.length = x.length → simps y x = (List.zipWith (· * ·) (w x) y).sum

/-- The density of one of `n` emitted electrons at the energy `e`, before the normalisation: the Gamma law of the table. -/
noncomputable def gammaShape (epsN pN : List ℝ) (n : ℕ) (e : ℝ) : ℝ := e ^ (pN.getD (n - 1) 0 - 1) * exp (-e / epsN.getD (n - 1) 0)

theorem quad_map_lin {simps : List ℝ → List ℝ → ℝ} (h : IsQuadrature simps) (energy : List ℝ) (f g : ℝ → ℝ) (a b : ℝ) :
    simps (energy.map (fun e => a * f e + b * g e)) energy = a * simps (energy.map f) energy + b * simps (energy.map g) energy := by
  obtain ⟨w, _, hw⟩ := h
  rw [hw _ _ (by simp), hw _ _ (by simp), hw _ _ (by simp)]
  generalize w energy = l
  induction energy generalizing l with
  | nil => simp
  | cons e t ih =>
    cases l with
    | nil => simp
    | cons c l =>
      simp only [List.map_cons, List.zipWith_cons_cons, List.sum_cons, ih l]
      ring

theorem quad_zero {simps : List ℝ → List ℝ → ℝ} (h : IsQuadrature simps) (energy : List ℝ) : simps (energy.map (fun _ => 0)) energy = 0 := by
  have := quad_map_lin h energy (fun _ => 0) (fun _ => 0) 0 0
  simpa using this

theorem quad_map_sum {simps : List ℝ → List ℝ → ℝ} (h : IsQuadrature simps) (energy : List ℝ) (f : ℕ → ℝ → ℝ) (c : ℕ → ℝ) (l : List ℕ) :
    simps (energy.map (fun e => (l.map (fun n => c n * f n e)).sum)) energy = (l.map (fun n => c n * simps (energy.map (f n)) energy)).sum := by
  induction l with
  | nil => simpa using quad_zero h energy
  | cons n l ih =>
    have := quad_map_lin h energy (f n) (fun e => (l.map (fun n => c n * f n e)).sum) (c n) 1
    simp only [one_mul] at this
    simp only [List.map_cons, List.sum_cons]
    rw [this, ih]

theorem pyGet_pred (l : List ℝ) (n : ℕ) (h1 : 1 ≤ n) (h2 : n ≤ l.length) : pyGet l ((n : ℤ) - 1) = .ok (l.getD (n - 1) 0) := by
  unfold pyGet
  have e1 : ¬ ((n : ℤ) - 1 < 0) := by omega
  have e2 : ((n : ℤ) - 1).toNat = n - 1 := by omega
  have e3 : l[n - 1]? = some l[n - 1] := List.getElem?_eq_getElem (by omega)
  simp only [e1, if_false, e2, e3, List.getD_eq_getElem?_getD, Option.getD_some]

/-- **C136** (density of true secondaries). For an impact with energy and a grid on which the Gamma law has an area, the density returned for each of
`nn` electrons is this law divided by its area on the grid, so that its own area is 1; with it comes the probability of `nn` electrons. -/
theorem C136_true_density (simps : List ℝ → List ℝ → ℝ) (hq : IsQuadrature simps) (choice : FPChoice) (mCut : ℕ) (epsN pN : List ℝ) (delta e0 : ℝ)
    (energy : List ℝ) (nn : ℕ) (h1 : 1 ≤ nn) (he : nn ≤ epsN.length) (hp : nn ≤ pN.length) (P : ℝ) (hP : fpProb choice mCut nn delta = .ok P)
    (h0 : e0 ≠ 0) (hA : simps (energy.map (gammaShape epsN pN nn)) energy ≠ 0) :
    ∃ f, fpPdfTrue simps choice mCut epsN pN delta nn e0 energy = .ok (f, P) ∧ simps f energy = 1 ∧
      f = energy.map (fun e => gammaShape epsN pN nn e / simps (energy.map (gammaShape epsN pN nn)) energy) := by
  have hf : (fpShape (epsN.getD (nn - 1) 0) (pN.getD (nn - 1) 0) energy).map ((if e0 = 0 then (0 : ℝ) else 1) * ·) =
      energy.map (gammaShape epsN pN nn) := by
    simp [fpShape, h0, gammaShape]
  refine ⟨_, ?_, ?_, rfl⟩
  · unfold fpPdfTrue
    rw [hP, pyGet_pred _ _ h1 he, pyGet_pred _ _ h1 hp]
    simp only [bind, Except.bind, pure, Except.pure]
    rw [hf]
    simp
  · have := quad_map_lin hq energy (gammaShape epsN pN nn) (fun _ => 0) (1 / simps (energy.map (gammaShape epsN pN nn)) energy) 0
    simp only [mul_zero, add_zero, zero_mul] at this
    have e1 : (fun e => gammaShape epsN pN nn e / simps (energy.map (gammaShape epsN pN nn)) energy) =
        fun e => 1 / simps (energy.map (gammaShape epsN pN nn)) energy * gammaShape epsN pN nn e := by
      funext e; ring
    rw [e1, this, one_div, inv_mul_cancel₀ hA]

theorem averageSum_eq (simps : List ℝ → List ℝ → ℝ) (hq : IsQuadrature simps) (choice : FPChoice) (mCut : ℕ) (epsN pN : List ℝ) (delta e0 : ℝ)
    (energy : List ℝ) (P : ℕ → ℝ) (h0 : e0 ≠ 0) (l : List ℕ)
    (hl : ∀ n ∈ l, 1 ≤ n ∧ n ≤ epsN.length ∧ n ≤ pN.length ∧ fpProb choice mCut n delta = .ok (P n) ∧
      simps (energy.map (gammaShape epsN pN n)) energy ≠ 0) (g : ℝ → ℝ) :
    fpAverageSum simps choice mCut epsN pN delta e0 energy l (energy.map g) =
      .ok (energy.map (fun e => g e +
        (l.map (fun n => (n * P n) * (gammaShape epsN pN n e / simps (energy.map (gammaShape epsN pN n)) energy))).sum)) := by
  induction l generalizing g with
  | nil => simp [fpAverageSum]
  | cons n l ih =>
    obtain ⟨a1, a2, a3, a4, a5⟩ := hl n (List.mem_cons_self ..)
    obtain ⟨f, b1, _, b3⟩ := C136_true_density simps hq choice mCut epsN pN delta e0 energy n a1 a2 a3 (P n) a4 h0 a5
    unfold fpAverageSum
    rw [b1]
    simp only [bind, Except.bind]
    have hz : List.zipWith (fun a f => a + f * P n * (n : ℝ)) (energy.map g) f =
        energy.map (fun e => g e + n * P n * (gammaShape epsN pN n e / simps (energy.map (gammaShape epsN pN n)) energy)) := by
      rw [b3, List.zipWith_map, List.zipWith_self]
      apply List.map_congr_left
      intro e _
      ring
    rw [hz, ih (fun n hn => hl n (List.mem_cons_of_mem _ hn))]
    congr 1
    apply List.map_congr_left
    intro e _
    simp only [List.map_cons, List.sum_cons]
    ring

/-- **C136** (average spectrum). For an impact with energy and a grid on which the Gamma laws of the table have an area, the average spectrum is the
mean of the densities of the electrons emitted in events of 1, ..., `M_cut` electrons, each event counted with its probability and its number of
electrons; its area on the grid is 1. -/
theorem C136_average (simps : List ℝ → List ℝ → ℝ) (hq : IsQuadrature simps) (choice : FPChoice) (mCut : ℕ) (epsN pN : List ℝ) (delta e0 : ℝ)
    (energy : List ℝ) (P : ℕ → ℝ) (h0 : e0 ≠ 0) (hel : mCut ≤ epsN.length) (hpl : mCut ≤ pN.length)
    (hP : ∀ n, 1 ≤ n → n ≤ mCut → fpProb choice mCut n delta = .ok (P n))
    (hA : ∀ n, 1 ≤ n → n ≤ mCut → simps (energy.map (gammaShape epsN pN n)) energy ≠ 0)
    (hN : (((List.range mCut).map (· + 1)).map (fun n : ℕ => (n : ℝ) * P n)).sum ≠ 0) :
    ∃ f, fpAverage simps choice mCut epsN pN delta e0 energy = .ok f ∧ simps f energy = 1 ∧
      f = energy.map (fun e => (((List.range mCut).map (· + 1)).map (fun n : ℕ => (n * P n) *
          (gammaShape epsN pN n e / simps (energy.map (gammaShape epsN pN n)) energy))).sum /
        (((List.range mCut).map (· + 1)).map (fun n : ℕ => (n : ℝ) * P n)).sum) := by
  have hl : ∀ n ∈ (List.range mCut).map (· + 1), 1 ≤ n ∧ n ≤ mCut := by
    intro n hn
    simp only [List.mem_map, List.mem_range] at hn
    omega
  have hs := averageSum_eq simps hq choice mCut epsN pN delta e0 energy P h0 ((List.range mCut).map (· + 1))
    (fun n hn => ⟨(hl n hn).1, (hl n hn).2.trans hel, (hl n hn).2.trans hpl, hP n (hl n hn).1 (hl n hn).2, hA n (hl n hn).1 (hl n hn).2⟩)
    (fun _ => 0)
  simp only [zero_add] at hs
  set l := (List.range mCut).map (· + 1) with hldef
  set N : ℝ := (l.map (fun n : ℕ => (n : ℝ) * P n)).sum with hNdef
  set S : ℝ → ℝ := fun e => (l.map (fun n : ℕ => (n * P n) * (gammaShape epsN pN n e / simps (energy.map (gammaShape epsN pN n)) energy))).sum with hS
  have harea : simps (energy.map S) energy = N := by
    rw [hS, quad_map_sum hq energy (fun n e => gammaShape epsN pN n e / simps (energy.map (gammaShape epsN pN n)) energy) (fun n => n * P n) l, hNdef]
    congr 1
    apply List.map_congr_left
    intro n hn
    have h1 := quad_map_lin hq energy (gammaShape epsN pN n) (fun _ => 0) (1 / simps (energy.map (gammaShape epsN pN n)) energy) 0
    simp only [mul_zero, add_zero, zero_mul] at h1
    have e1 : (fun e => gammaShape epsN pN n e / simps (energy.map (gammaShape epsN pN n)) energy) =
        fun e => 1 / simps (energy.map (gammaShape epsN pN n)) energy * gammaShape epsN pN n e := by
      funext e; ring
    rw [e1, h1, one_div, inv_mul_cancel₀ (hA n (hl n hn).1 (hl n hn).2), mul_one]
  refine ⟨energy.map (fun e => S e / N), ?_, ?_, rfl⟩
  · unfold fpAverage
    rw [← hldef, hs]
    simp only [bind, Except.bind, pure, Except.pure]
    rw [harea]
    simp
  · have h1 := quad_map_lin hq energy S (fun _ => 0) (1 / N) 0
    simp only [mul_zero, add_zero, zero_mul] at h1
    have e1 : (fun e => S e / N) = fun e => 1 / N * S e := by funext e; ring
    rw [e1, h1, harea, one_div, inv_mul_cancel₀ hN]

/-- Simpson's rule on three points is a quadrature rule; one grid, a table of two entries and a yield meet the conditions -/
example : ∃ simps : List ℝ → List ℝ → ℝ, IsQuadrature simps ∧ (∀ a b c : ℝ, simps [a, b, c] [0, 1, 2] = (a + 4 * b + c) / 3) ∧
    (∀ n, 1 ≤ n → n ≤ 2 → simps (([0, 1, 2] : List ℝ).map (gammaShape [1, 2] [2, 2] n)) [0, 1, 2] ≠ 0) ∧
    (∀ n, 1 ≤ n → n ≤ 2 → fpProb .binomial 2 n 1 = .ok (1 / 3)) ∧
    (((List.range 2).map (· + 1)).map (fun n : ℕ => (n : ℝ) * (1 / 3))).sum = 1 := by
  have hw : ∀ n, (1 ≤ n ∧ n ≤ 2) → ((List.range 3).map (fun k => (Nat.choose 2 n : ℝ) * (1 / (2 : ℕ)) ^ k * (1 - 1 / (2 : ℕ)) ^ (2 - k))) =
      [(Nat.choose 2 n : ℝ) / 4, (Nat.choose 2 n : ℝ) / 4, (Nat.choose 2 n : ℝ) / 4] := by
    rintro n ⟨h1, h2⟩
    interval_cases n <;> norm_num [List.range_succ, Nat.choose]
  refine ⟨fun y x => (List.zipWith (· * ·) (x.mapIdx (fun i _ => if i = 1 then 4 / 3 else 1 / 3)) y).sum,
    ⟨fun x => x.mapIdx (fun i _ => if i = 1 then 4 / 3 else 1 / 3), by simp, fun _ _ _ => rfl⟩, ?_, ?_, ?_, ?_⟩
  · intro a b c
    simp
    ring
  · intro n h1 h2
    have hg : ∀ e : ℝ, 0 < e → 0 < gammaShape [1, 2] [2, 2] n e := fun e he => mul_pos (Real.rpow_pos_of_pos he _) (exp_pos _)
    have hg0 : gammaShape [1, 2] [2, 2] n 0 = 0 := by
      unfold gammaShape
      interval_cases n <;> norm_num
    have q1 := hg 1 one_pos
    have q2 := hg 2 two_pos
    simp [hg0]
    positivity
  · intro n h1 h2
    unfold fpProb fpWeights
    simp only [bind, Except.bind]
    rw [if_neg (by omega), hw n ⟨h1, h2⟩]
    interval_cases n <;> norm_num [Nat.choose]
  · norm_num [List.range_succ]

end PyECLOUD
