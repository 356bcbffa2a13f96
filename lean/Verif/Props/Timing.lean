import Verif.Lemmas.Motion
import Verif.Props.Dynamics
import Mathlib.Algebra.Order.Archimedean.Real.Basic

/-!
# Properties of the time stepping (C40-C44, C63-C66)
-/

namespace PyECLOUD

set_option linter.unusedSectionVars false

section grid
variable {K : Type} [Field K] [LinearOrder K] [IsStrictOrderedRing K] [FloorRing K]

/-- What the beam object shows during the run: step `i` of the list is at the grid point `i`, with the
time step to the next grid point and the line density of that point. -/
def IsTimeTrace (g : BeamGrid K) (tr : List (BeamSt K)) : Prop :=
  tr.length = g.t.length - 1 ∧
  ∀ (i : ℕ) (b : BeamSt K), tr[i]? = some b →
    b.ii = (i : ℤ) ∧ b.tt = g.t[i]? ∧ b.lamCurr = g.lam[i]? ∧
    ∃ t0 t1, g.t[i]? = some t0 ∧ g.t[i + 1]? = some t1 ∧ b.dtCurr = some (t1 - t0) ∧ 0 < t1 - t0 ∧
      b.pass = some ⌊t0 / g.bSpac⌋

theorem trace_isTimeTrace (g : BeamGrid K) (ht : g.t.Pairwise (· < ·)) (hl : g.lam.length = g.t.length) :
    IsTimeTrace g ((List.range' 0 (g.t.length - 1)).map (beamAt g)) := by
  refine ⟨by simp, fun i b hb => ?_⟩
  have hi : i < g.t.length - 1 := by
    by_contra hc
    rw [List.getElem?_eq_none (by simpa using hc)] at hb; cases hb
  rw [List.getElem?_map, List.getElem?_range' hi] at hb
  simp only [Option.map_some, Option.some.injEq] at hb
  have e : 0 + 1 * i = i := by omega
  rw [e] at hb
  subst hb
  have h0 : g.t[i]? = some (g.t.getD i 0) := by
    rw [List.getElem?_eq_getElem (by omega), List.getD_eq_getElem]
  have h1 : g.t[i + 1]? = some (g.t.getD (i + 1) 0) := by
    rw [List.getElem?_eq_getElem (by omega), List.getD_eq_getElem]
  have h2 : g.lam[i]? = some (g.lam.getD i 0) := by
    rw [List.getElem?_eq_getElem (by omega), List.getD_eq_getElem]
  refine ⟨rfl, h0.symm, h2.symm, _, _, h0, h1, rfl, ?_, rfl⟩
  have := grid_mono g.t ht i (i + 1) (by omega) (by omega)
  linarith

/-- **C40.** For every strictly increasing time grid there is one sequence of exactly `len(t) - 1` beam
states, each reading existing entries of the grid only, such that `run()` with any simulation body
executes the body once per state, in that order, and ends. -/
theorem C40_run (g : BeamGrid K) (hb : 0 < g.bSpac) (ht : g.t.Pairwise (· < ·))
    (hl : g.lam.length = g.t.length) :
    ∃ tr, IsTimeTrace g tr ∧ ∀ (S : Type) (body : BeamSt K → S → Except PyErr S) (s : S) (fuel : ℕ),
      g.t.length ≤ fuel → fuel ≠ 0 →
      runLoop g body none fuel BeamSt.init s
        = (match tr.foldlM (fun s b => body b s) s with
            | .error e => .error e
            | .ok s' => .ok (tr.getLastD BeamSt.init, s')) := by
  refine ⟨_, trace_isTimeTrace g ht hl, fun S body s fuel hf hf0 => ?_⟩
  have h := runLoop_none g hb ht hl body fuel 0 s (by omega) (by omega) hf0
  rw [Nat.sub_zero, foldSteps_eq_foldlM] at h
  have hlast : beamBefore g (g.t.length - 1)
      = ((List.range' 0 (g.t.length - 1)).map (beamAt g)).getLastD BeamSt.init := by
    cases hn : g.t.length - 1 with
    | zero => rfl
    | succ n =>
      rw [List.range'_concat]
      simp [beamBefore]
  rw [hlast] at h
  exact h

/-- **C40**, elapsed time: the time steps of the run add up to the length of the grid. -/
theorem C40_elapsed (g : BeamGrid K) (tr : List (BeamSt K)) (h : IsTimeTrace g tr) (hne : g.t ≠ []) :
    (tr.map (fun b => b.dtCurr.getD 0)).sum = g.t.getLast hne - g.t.head hne := by
  obtain ⟨hlen, hx⟩ := h
  have key : ∀ n ≤ tr.length, ((tr.take n).map (fun b => b.dtCurr.getD 0)).sum
      = g.t.getD n 0 - g.t.getD 0 0 := by
    intro n hn
    induction n with
    | zero => simp
    | succ n ih =>
      have hn' : n < tr.length := by omega
      rw [List.take_succ_eq_append_getElem hn', List.map_append, List.sum_append, ih (by omega)]
      obtain ⟨-, -, -, t0, t1, e0, e1, e2, -, -⟩ := hx n tr[n] (List.getElem?_eq_getElem hn')
      simp only [List.map_cons, List.map_nil, List.sum_cons, List.sum_nil, e2, Option.getD_some, add_zero]
      rw [List.getD_eq_getElem?_getD (l := g.t) (i := n + 1), e1, List.getD_eq_getElem?_getD (l := g.t) (i := n), e0]
      simp
  have := key tr.length le_rfl
  rw [List.take_length] at this
  rw [this, hlen]
  have hp : 0 < g.t.length := List.length_pos_iff.mpr hne
  rw [List.getD_eq_getElem _ _ (by omega), List.getD_eq_getElem _ _ hp, List.getLast_eq_getElem,
    List.head_eq_getElem]

/-- a grid with non-uniform steps over three passages -/
def exGrid : BeamGrid ℚ := ⟨[0, 1, 3, 4, 7, 9, 10], [5, 0, 1, 2, 3, 4, 5], 4, false⟩

example : ∃ tr, IsTimeTrace exGrid tr ∧ tr.length = 6 ∧ (tr.map (fun b => b.dtCurr.getD 0)).sum = 10 := by
  have ht : exGrid.t.Pairwise (· < ·) := by decide +kernel
  obtain ⟨tr, htr, -⟩ := C40_run exGrid (by decide +kernel) ht rfl
  refine ⟨tr, htr, htr.1, ?_⟩
  rw [C40_elapsed exGrid tr htr (by simp [exGrid])]
  simp [exGrid]

/-- **C63.** Stopping at `t_end_sim` and calling `run()` again is the same as one uninterrupted run, for
every simulation body and every stopping time; and the run stops exactly at the first step whose time has
reached `t_end_sim` (or at the end of the grid). -/
theorem C63_resume (g : BeamGrid K) (hb : 0 < g.bSpac) (ht : g.t.Pairwise (· < ·))
    (hl : g.lam.length = g.t.length) {S : Type} (body : BeamSt K → S → Except PyErr S) (s : S) (te : K)
    (f1 f2 f3 : ℕ) (h1 : g.t.length < f1) (h2 : g.t.length < f2) (h3 : g.t.length < f3) (b1 : BeamSt K) (s1 : S)
    (hr : runLoop g body (some te) f1 BeamSt.init s = .ok (b1, s1)) :
    runLoop g body none f2 b1 s1 = runLoop g body none f3 BeamSt.init s := by
  obtain ⟨m, hm1, hm2, hm3, hm4⟩ := runLoop_some g hb ht hl body te f1 0 s (by omega) (by omega) (by omega)
  have hr' : runLoop g body (some te) f1 (beamBefore g 0) s = .ok (b1, s1) := hr
  rw [hm4] at hr'
  have hr := hr'
  cases hfs : foldSteps g body 0 m s with
  | error e => rw [hfs] at hr; cases hr
  | ok s' =>
    rw [hfs] at hr
    simp only [Except.ok.injEq, Prod.mk.injEq] at hr
    obtain ⟨rfl, rfl⟩ := hr
    have e1 := runLoop_none g hb ht hl body f2 (0 + m) s' (by omega) (by omega) (by omega)
    have e2 := runLoop_none g hb ht hl body f3 0 s (by omega) (by omega) (by omega)
    rw [e1]
    refine Eq.trans ?_ e2.symm
    have hsplit : g.t.length - 1 - 0 = m + (g.t.length - 1 - (0 + m)) := by omega
    rw [hsplit, foldSteps_append, hfs]

/-- **C63**, stopping time. -/
theorem C63_stop (g : BeamGrid K) (hb : 0 < g.bSpac) (ht : g.t.Pairwise (· < ·))
    (hl : g.lam.length = g.t.length) {S : Type} (body : BeamSt K → S → Except PyErr S) (s : S) (te : K)
    (fuel : ℕ) (hf : g.t.length < fuel) (b1 : BeamSt K) (s1 : S)
    (hr : runLoop g body (some te) fuel BeamSt.init s = .ok (b1, s1)) :
    (b1.ii + 2 < (g.t.length : ℤ) → ∃ t, b1.tt = some t ∧ te ≤ t) ∧
    (∀ k : ℕ, (k : ℤ) < b1.ii → ∀ t, g.t[k]? = some t → t < te) := by
  obtain ⟨m, hm1, hm2, hm3, hm4⟩ := runLoop_some g hb ht hl body te fuel 0 s (by omega) (by omega) (by omega)
  have hr' : runLoop g body (some te) fuel (beamBefore g 0) s = .ok (b1, s1) := hr
  rw [hm4] at hr'
  have hr := hr'
  cases hfs : foldSteps g body 0 m s with
  | error e => rw [hfs] at hr; cases hr
  | ok s' =>
    rw [hfs] at hr
    simp only [Except.ok.injEq, Prod.mk.injEq] at hr
    obtain ⟨rfl, rfl⟩ := hr
    rw [Nat.zero_add] at *
    have hii : (beamBefore g m).ii = (m : ℤ) - 1 := by
      cases m <;> simp [beamBefore, BeamSt.init, beamAt]
    refine ⟨fun h => ?_, fun k hk t hkt => ?_⟩
    · rw [hii] at h
      have := hm3 (by omega)
      cases m with
      | zero => simp [beamBefore, BeamSt.init, reachedEnd] at this
      | succ m =>
        simp only [beamBefore, beamAt, reachedEnd, decide_eq_true_eq] at this
        exact ⟨_, rfl, this⟩
    · rw [hii] at hk
      have := hm2 (k + 1) (by omega) (by omega)
      simp only [beamBefore, beamAt, reachedEnd, decide_eq_false_iff_not, not_le] at this
      rw [List.getD_eq_getElem?_getD, hkt] at this
      simpa using this

example : ∃ b1 s1, runLoop exGrid (fun b (s : ℚ) => .ok (s + b.dtCurr.getD 0)) (some 3) 20 BeamSt.init 0
    = .ok (b1, s1) ∧ s1 = 4 :=
  ⟨_, _, rfl, by decide +kernel⟩

/-- flags of a non-decreasing sequence -/
theorem flag_once (n : ℕ) (pass : ℕ → ℤ) (flag : ℕ → Bool)
    (hmono : ∀ i j, i ≤ j → j < n → pass i ≤ pass j) (h0 : ∀ i < n, 0 ≤ pass i)
    (hflag : ∀ i < n, flag i = true ↔ 0 ≤ pass i ∧ ∀ j < i, pass j < pass i) :
    ∀ i < n, ∃ k ≤ i, flag k = true ∧ pass k = pass i ∧
      ∀ k' < n, flag k' = true → pass k' = pass i → k' = k := by
  intro i hi
  have hex : ∃ k, k ≤ i ∧ pass k = pass i := ⟨i, le_rfl, rfl⟩
  classical
  refine ⟨Nat.find hex, (Nat.find_spec hex).1, ?_, (Nat.find_spec hex).2, ?_⟩
  · have hk := Nat.find_spec hex
    rw [hflag _ (by omega)]
    refine ⟨h0 _ (by omega), fun j hj => ?_⟩
    have hne := Nat.find_min hex hj
    have hle := hmono j (Nat.find hex) (by omega) (by omega)
    rcases lt_or_eq_of_le hle with h | h
    · exact h
    · exact absurd ⟨by omega, h.trans hk.2⟩ hne
  · intro k' hk' hf hp
    have hk := Nat.find_spec hex
    rcases Nat.lt_trichotomy k' (Nat.find hex) with h | h | h
    · have := ((hflag (Nat.find hex) (by omega)).mp ?_).2 k' h
      · omega
      · rw [hflag _ (by omega)]
        refine ⟨h0 _ (by omega), fun j hj => ?_⟩
        have hne := Nat.find_min hex hj
        have hle := hmono j (Nat.find hex) (by omega) (by omega)
        rcases lt_or_eq_of_le hle with h | h
        · exact h
        · exact absurd ⟨by omega, h.trans hk.2⟩ hne
    · exact h
    · have := ((hflag k' hk').mp hf).2 _ h
      omega

/-- **C41.** At every step the flag is raised exactly when the passage number exceeds all passage numbers
before it (and is not negative); the passage numbers never decrease. On a grid that starts at a non-negative time every
passage number that occurs is flagged at exactly one step, the first with that number. -/
theorem C41_new_passage (g : BeamGrid K) (hb : 0 < g.bSpac) (ht : g.t.Pairwise (· < ·))
    (hl : g.lam.length = g.t.length) :
    ∃ (pass : ℕ → ℤ) (flag : ℕ → Bool),
      (∀ (fuel : ℕ), g.t.length < fuel → ∃ b, runLoop g (fun b (l : List (Option ℤ × Bool)) =>
          .ok (l ++ [(b.pass, b.newPass)])) none fuel BeamSt.init []
        = .ok (b, (List.range (g.t.length - 1)).map (fun i => (some (pass i), flag i)))) ∧
      (∀ i < g.t.length - 1, ∀ t, g.t[i]? = some t → pass i = ⌊t / g.bSpac⌋) ∧
      (∀ i j, i ≤ j → j < g.t.length - 1 → pass i ≤ pass j) ∧
      (∀ i < g.t.length - 1, flag i = true ↔ 0 ≤ pass i ∧ ∀ j < i, pass j < pass i) ∧
      ((∀ t ∈ g.t, 0 ≤ t) → ∀ i < g.t.length - 1, ∃ k ≤ i, flag k = true ∧ pass k = pass i ∧
        ∀ k' < g.t.length - 1, flag k' = true → pass k' = pass i → k' = k) := by
  have hmono : ∀ i j, i ≤ j → j < g.t.length - 1 → passOf g (g.t.getD i 0) ≤ passOf g (g.t.getD j 0) := by
    intro i j hij hj
    rcases Nat.eq_or_lt_of_le hij with rfl | hlt
    · exact le_rfl
    · exact passOf_mono g hb (grid_mono g.t ht i j hlt (by omega)).le
  have hflag : ∀ i < g.t.length - 1, (beamAt g i).newPass = true ↔
      0 ≤ passOf g (g.t.getD i 0) ∧ ∀ j < i, passOf g (g.t.getD j 0) < passOf g (g.t.getD i 0) := by
    intro i hi
    simp only [beamAt, decide_eq_true_eq]
    by_cases h0 : i = 0
    · subst h0
      simp; omega
    · rw [if_neg h0]
      constructor
      · intro h
        have h1 : (-1 : ℤ) < passOf g (g.t.getD i 0) := lt_of_le_of_lt (le_max_left _ _) h
        refine ⟨by omega, fun j hj => ?_⟩
        exact lt_of_le_of_lt (hmono j (i - 1) (by omega) (by omega)) (lt_of_le_of_lt (le_max_right _ _) h)
      · rintro ⟨h1, h2⟩
        exact max_lt (by omega) (h2 (i - 1) (by omega))
  refine ⟨fun i => passOf g (g.t.getD i 0), fun i => (beamAt g i).newPass, fun fuel hf => ?_, ?_, hmono, hflag,
    fun h0 => flag_once _ _ _ hmono (fun i hi => ?_) hflag⟩
  · have h := runLoop_none g hb ht hl (fun b (l : List (Option ℤ × Bool)) => .ok (l ++ [(b.pass, b.newPass)]))
      fuel 0 [] (by omega) (by omega) (by omega)
    refine ⟨beamBefore g (g.t.length - 1), h.trans ?_⟩
    have hfold : ∀ (i n : ℕ) (l : List (Option ℤ × Bool)),
        foldSteps g (fun b (l : List (Option ℤ × Bool)) => .ok (l ++ [(b.pass, b.newPass)])) i n l
          = .ok (l ++ (List.range' i n).map (fun i => (some (passOf g (g.t.getD i 0)), (beamAt g i).newPass))) := by
      intro i n
      induction n generalizing i with
      | zero => intro l; simp [foldSteps]
      | succ n ih =>
        intro l
        simp only [foldSteps, ih, List.range'_succ, List.map_cons, List.append_assoc, List.singleton_append]
        rfl
    rw [hfold, List.range_eq_range']
    rfl
  · intro i hi t hit
    show passOf g (g.t.getD i 0) = _
    rw [List.getD_eq_getElem?_getD, hit]
    rfl
  · have : 0 ≤ g.t.getD i 0 := by
      rw [List.getD_eq_getElem _ _ (by omega)]
      exact h0 _ (List.getElem_mem _)
    exact Int.floor_nonneg.mpr (div_nonneg this hb.le)

/-- the passages `0, 0, 0, 1, 1, 2` of the example grid are flagged at the steps 0, 3 and 5 -/
example : ∃ r, runLoop exGrid (fun b (l : List (Option ℤ × Bool)) => .ok (l ++ [(b.pass, b.newPass)])) none 20
    BeamSt.init [] = .ok r ∧ r.2 = [(some 0, true), (some 0, false), (some 0, false), (some 1, true),
      (some 1, false), (some 2, true)] := exists_ok (by decide +kernel)

/-! ## Time grid of a bunched beam -/

/-- **C64.** The time axis of a bunched beam starts at 0, has the constant step `Dt`, the last simulated
time step ends after all bunch slots and the requested extra time, and every passage number met in the run
is smaller than the total number of passages the output is allocated for. -/
theorem C64_time_grid (nB : ℕ) (bSpac tEnd dt : K) (hdt : 0 < dt) (hb : 0 < bSpac) (hE : 0 ≤ tEnd) :
    let t := timeGrid nB bSpac tEnd dt
    2 ≤ t.length ∧ (∀ (i : ℕ) (v : K), t[i]? = some v → v = (i : K) * dt) ∧ t.Pairwise (· < ·) ∧
    (∀ v, t[t.length - 2]? = some v → (nB : K) * bSpac + tEnd ≤ v) ∧
    (∀ (i : ℕ) (v : K), i + 1 < t.length → t[i]? = some v → 0 ≤ ⌊v / bSpac⌋ ∧ ⌊v / bSpac⌋ < nPassTot t bSpac) := by
  intro t
  set stop := (nB : K) * bSpac + tEnd + 2 * dt with hstop
  have hstop2 : 2 ≤ stop / dt := by
    rw [le_div_iff₀ hdt, hstop]
    have : 0 ≤ (nB : K) * bSpac := mul_nonneg (Nat.cast_nonneg _) hb.le
    linarith
  have hceil : (2 : ℤ) ≤ ⌈stop / dt⌉ := by
    have h1 : ((2 : ℤ) : K) ≤ stop / dt := by push_cast; exact hstop2
    exact_mod_cast h1.trans (Int.le_ceil _)
  have hlen : t.length = ⌈stop / dt⌉.toNat := by simp [t, timeGrid, arange, hstop]
  have hlenZ : (t.length : ℤ) = ⌈stop / dt⌉ := by rw [hlen]; omega
  have hget : ∀ (i : ℕ) (v : K), t[i]? = some v → i < t.length ∧ v = (i : K) * dt := by
    intro i v h
    have hi : i < t.length := by
      by_contra hc
      rw [List.getElem?_eq_none (by omega)] at h; cases h
    refine ⟨hi, ?_⟩
    have : t[i]? = some ((i : K) * dt) := by
      have hi' : i < ⌈stop / dt⌉.toNat := by omega
      simp only [t, timeGrid, arange, List.getElem?_map]
      rw [List.getElem?_range hi']
      rfl
    rw [this] at h
    exact (Option.some.inj h).symm
  have hmono : t.Pairwise (· < ·) := by
    simp only [t, timeGrid, arange, List.pairwise_map]
    refine List.Pairwise.imp ?_ List.pairwise_lt_range
    intro a b hab
    exact mul_lt_mul_of_pos_right (by exact_mod_cast hab) hdt
  have hle : stop ≤ (t.length : K) * dt := by
    have h1 := Int.le_ceil (stop / dt)
    rw [← hlenZ] at h1
    rw [div_le_iff₀ hdt] at h1
    exact_mod_cast h1
  refine ⟨by omega, fun i v h => (hget i v h).2, hmono, fun v h => ?_, fun i v hi h => ?_⟩
  · rw [(hget _ _ h).2]
    have : ((t.length - 2 : ℕ) : K) = (t.length : K) - 2 := by
      rw [Nat.cast_sub (by omega)]; norm_num
    rw [this]
    rw [hstop] at hle
    linarith
  · have hv := (hget _ _ h).2
    have hv0 : 0 ≤ v := by rw [hv]; exact mul_nonneg (Nat.cast_nonneg _) hdt.le
    refine ⟨Int.floor_nonneg.mpr (div_nonneg hv0 hb.le), ?_⟩
    have hlast : t.getLastD 0 = ((t.length - 1 : ℕ) : K) * dt := by
      have hne : t ≠ [] := by intro h0; rw [h0] at hlenZ; simp at hlenZ; omega
      rw [List.getLastD_eq_getLast?, List.getLast?_eq_getLast_of_ne_nil hne, List.getLast_eq_getElem]
      exact (hget (t.length - 1) _ (List.getElem?_eq_getElem (by omega))).2
    have hlt : v < t.getLastD 0 := by
      rw [hv, hlast]
      exact mul_lt_mul_of_pos_right (by exact_mod_cast (by omega : i < t.length - 1)) hdt
    unfold nPassTot
    have h1 : v / bSpac < t.getLastD 0 / bSpac := div_lt_div_of_pos_right hlt hb
    have h2 : ((⌊v / bSpac⌋ : ℤ) : K) ≤ v / bSpac := Int.floor_le _
    have h3 := Int.le_ceil (t.getLastD 0 / bSpac)
    exact_mod_cast lt_of_le_of_lt h2 (lt_of_lt_of_le h1 h3)

example : timeGrid 3 (5 : ℚ) 1 2 = [0, 2, 4, 6, 8, 10, 12, 14, 16, 18] := by decide +kernel

end grid

/-! ## Bunch train -/

theorem trainAt_sum (c t bSpac tOffs : ℝ) (i : ℕ) (l : List (ℝ × ℝ)) (val : ℝ) :
    trainAt c t bSpac tOffs i l val
      = val + ∑ k ∈ Finset.range l.length, bunchAt c t tOffs bSpac (i + k) (l.getD k (0, 0)).1 (l.getD k (0, 0)).2 := by
  induction l generalizing i val with
  | nil => simp [trainAt]
  | cons a l ih =>
    obtain ⟨p, s⟩ := a
    rw [trainAt, ih, List.length_cons, Finset.sum_range_succ']
    simp only [List.getD_cons_succ, List.getD_cons_zero, Nat.add_zero]
    have : ∀ k, i + 1 + k = i + (k + 1) := fun k => by omega
    simp only [this]
    ring

/-- Gaussian bunch of `n` particles and length `σ` at distance `dz` from its centre, cut at `10 σ`. -/
noncomputable def gaussBunch (n σ dz : ℝ) : ℝ :=
  if |dz| < 10 * σ then n / (σ * Real.sqrt (2 * Real.pi)) * Real.exp (-dz ^ 2 / (2 * σ ^ 2)) else 0

/-- **C65.** The line density is `fact_beam` times the sum over the bunch slots of one Gaussian per filled
slot `i`, centred at `c (t_offs + i b_spac)` and cut at ten bunch lengths, plus the coasting density. -/
theorem C65_bunch_train (c t bSpac tOffs factBeam coast σ : ℝ) (hσ : 0 < σ) (ppb : List ℝ) (hp : ∀ p ∈ ppb, 0 ≤ p) :
    lineDensity c t bSpac tOffs factBeam coast ppb σ = factBeam *
      (∑ i ∈ Finset.range ppb.length, gaussBunch (ppb.getD i 0) σ (c * t - c * (tOffs + i * bSpac))) + coast := by
  unfold lineDensity
  rw [trainAt_sum, zero_add]
  congr 2
  have hlen : (ppb.zip (sigmazVect ppb σ)).length = ppb.length := by simp [sigmazVect]
  rw [hlen]
  apply Finset.sum_congr rfl
  intro i hi
  have hi' : i < ppb.length := by simpa using hi
  have hg : (ppb.zip (sigmazVect ppb σ)).getD i (0, 0) = (ppb[i], if ppb[i] > 0 then σ else 0) := by
    rw [List.getD_eq_getElem _ _ (by rw [hlen]; exact hi')]
    simp [sigmazVect]
  rw [hg, List.getD_eq_getElem _ _ hi', Nat.zero_add]
  have hnn := hp _ (List.getElem_mem hi')
  dsimp only
  by_cases hpos : ppb[i] > 0
  · rw [if_pos hpos]
    unfold bunchAt gaussBunch
    rw [if_pos hσ]
    dsimp only
    split
    · congr 2; ring_nf
    · rfl
  · have h0 : ppb[i] = 0 := le_antisymm (not_lt.mp hpos) hnn
    rw [if_neg hpos, h0]
    simp [bunchAt, gaussBunch]

/-- **C65**, consequences: with non-negative intensities the line density is never below the coasting
density, and equals it at ten bunch lengths or more from the centre of every slot. -/
theorem C65_bounds (c t bSpac tOffs factBeam coast σ : ℝ) (hσ : 0 < σ) (hf : 0 ≤ factBeam) (ppb : List ℝ)
    (hp : ∀ p ∈ ppb, 0 ≤ p) :
    coast ≤ lineDensity c t bSpac tOffs factBeam coast ppb σ ∧
    ((∀ i < ppb.length, 10 * σ ≤ |c * t - c * (tOffs + i * bSpac)|) →
      lineDensity c t bSpac tOffs factBeam coast ppb σ = coast) := by
  rw [C65_bunch_train c t bSpac tOffs factBeam coast σ hσ ppb hp]
  constructor
  · have : 0 ≤ ∑ i ∈ Finset.range ppb.length, gaussBunch (ppb.getD i 0) σ (c * t - c * (tOffs + i * bSpac)) := by
      apply Finset.sum_nonneg
      intro i hi
      have hi' : i < ppb.length := by simpa using hi
      have hnn : 0 ≤ ppb.getD i 0 := by
        rw [List.getD_eq_getElem _ _ hi']; exact hp _ (List.getElem_mem hi')
      unfold gaussBunch
      split
      · exact mul_nonneg (div_nonneg hnn (mul_nonneg hσ.le (Real.sqrt_nonneg _))) (Real.exp_pos _).le
      · exact le_rfl
    nlinarith [mul_nonneg hf this]
  · intro hfar
    have : ∑ i ∈ Finset.range ppb.length, gaussBunch (ppb.getD i 0) σ (c * t - c * (tOffs + i * bSpac)) = 0 := by
      apply Finset.sum_eq_zero
      intro i hi
      unfold gaussBunch
      rw [if_neg (not_lt.mpr (hfar i (by simpa using hi)))]
    rw [this]; ring

/-- at the centre of a filled slot the density is strictly above the coasting density -/
example : (0 : ℝ) < lineDensity 3 7 5 2 1 0 [0, 4, 0] 1 := by
  rw [C65_bunch_train _ _ _ _ _ _ _ (by norm_num) _ (by simp)]
  simp [Finset.sum_range_succ, gaussBunch]
  norm_num
  exact Real.pi_pos

/-! ## Space charge -/

section sched
variable {K : Type} [Field K] [LinearOrder K] [IsStrictOrderedRing K]

/-- **C42** for every sequence of time steps `(time, forced)`, starting from `t_last_recom = 0`:
a forced step always recomputes; an unforced step not after `t_sc_ON` never does; without decimation every
step after `t_sc_ON` does; with decimation two unforced recomputations are at least `Dt_sc` apart, and at
every step later than `t_sc_ON + Dt_sc` the last recomputation is younger than `Dt_sc`. -/
theorem C42_schedule_partial (dtSc : Option K) (hd : ∀ d ∈ dtSc, 0 < d) (on : K) (hon : 0 ≤ on)
    (l : List (K × Bool)) (out : List Bool) (hout : out = scRun dtSc on 0 l) :
    out.length = l.length ∧
    (∀ (i : ℕ) (t : K), l[i]? = some (t, true) → out[i]? = some true) ∧
    (∀ (i : ℕ) (t : K), l[i]? = some (t, false) → t ≤ on → out[i]? = some false) ∧
    (dtSc = none → ∀ (i : ℕ) (t : K) (f : Bool), l[i]? = some (t, f) → on < t → out[i]? = some true) ∧
    (∀ d ∈ dtSc, ∀ (i j : ℕ) (ti tj : K), i < j → l[i]? = some (ti, false) → l[j]? = some (tj, false) →
      out[i]? = some true → out[j]? = some true → ti + d ≤ tj) ∧
    (∀ d ∈ dtSc, ∀ (i : ℕ) (t : K) (f : Bool), l[i]? = some (t, f) → on + d < t →
      ∃ (j : ℕ) (tj : K) (fj : Bool), j ≤ i ∧ l[j]? = some (tj, fj) ∧ out[j]? = some true ∧ t - tj < d) := by
  subst hout
  have hlen := scRun_length dtSc on 0 l
  have hlt : ∀ {i : ℕ} {p : K × Bool}, l[i]? = some p → i < l.length ∧ l.getD i (0, false) = p := by
    intro i p h
    refine ⟨?_, by rw [List.getD_eq_getElem?_getD, h]; rfl⟩
    by_contra hc
    rw [List.getElem?_eq_none (by omega)] at h; cases h
  have hget : ∀ {i : ℕ}, i < l.length → ∀ {b : Bool}, (scRun dtSc on 0 l).getD i false = b ↔
      (scRun dtSc on 0 l)[i]? = some b := by
    intro i hi b
    rw [List.getD_eq_getElem?_getD, List.getElem?_eq_getElem (by omega)]
    simp
  refine ⟨hlen, fun i t h => ?_, fun i t h hto => ?_, fun hn i t f h ht => ?_, ?_, ?_⟩
  · obtain ⟨h1, h2⟩ := hlt h
    exact (hget h1).mp (scRun_forced dtSc on l 0 i h1 (by rw [h2]))
  · obtain ⟨h1, h2⟩ := hlt h
    exact (hget h1).mp (scRun_off dtSc on l 0 i h1 (by rw [h2]) (by rw [h2]; exact hto))
  · obtain ⟨h1, h2⟩ := hlt h
    subst hn
    exact (hget h1).mp (scRun_nodecim on l 0 i h1 (by rw [h2]; exact ht))
  · intro d hd' i j ti tj hij hi hj hoi hoj
    obtain ⟨h1, h2⟩ := hlt hi
    obtain ⟨h3, h4⟩ := hlt hj
    cases hd'
    have := scRun_gap d on (hd d rfl).le l 0 i j hij h3 (by rw [h2]) (by rw [h4]) ((hget h1).mpr hoi)
      ((hget h3).mpr hoj)
    rw [h2, h4] at this
    exact this
  · intro d hd' i t f hi ht
    obtain ⟨h1, h2⟩ := hlt hi
    cases hd'
    have hdp := hd d rfl
    rcases scRun_timely d on hdp l 0 i h1 with ⟨j, hj, h3, h4⟩ | h3
    · rw [h2] at h3
      have hjl : j < l.length := by omega
      refine ⟨j, (l.getD j (0, false)).1, (l.getD j (0, false)).2, hj, ?_, ?_, h3⟩
      · rw [List.getD_eq_getElem _ _ hjl, List.getElem?_eq_getElem hjl]
      · exact (hget hjl).mp (h4 (by linarith))
    · rw [h2] at h3
      dsimp only at h3
      linarith

/-- **C42 does not hold in full**: the first step after `t_sc_ON` need not recompute although the field
has never been computed, because the check before `t_sc_ON` already moved `t_last_recom`. With
`Dt_sc = 10` and `t_sc_ON = 10.5` and steps of 1, the steps 11 to 19 go without field and the first
recomputation is at 20. -/
theorem C42_first_opportunity_violated :
    scRun (some (10 : ℚ)) (21 / 2) 0 ((List.range 21).map (fun k : ℕ => ((k : ℚ), false)))
      = List.replicate 20 false ++ [true] := by decide +kernel

example : scRun (some (2 : ℚ)) 3 0 [(0, false), (1, true), (2, false), (3, false), (4, false), (5, false), (6, false)]
    = [false, true, false, false, true, false, true] := by decide +kernel

end sched

/-- **C43.** After a recomputation over any number `n ≥ 1` of clouds with depositions `dep₁ … depₙ`, from any
previous state: the density of every cloud is its own deposition, the density of the solver is their sum,
and the solver has been run exactly once, on that sum. -/
theorem C43_cloud_densities {G : Type} [AddCommGroup G] (deps : List G) (h : deps ≠ []) (rhoOld : G)
    (solved : List G) :
    let r := rhoRound deps.length 0 deps ⟨rhoOld, [], solved⟩
    r.cloudRho = deps ∧ r.rho = deps.sum ∧ r.cloudRho.sum = r.rho ∧ r.solved = solved ++ [deps.sum] := by
  intro r
  have := rhoRound_spec deps.length [] deps ⟨rhoOld, [], solved⟩ (by simp) rfl (by simp)
  obtain ⟨a, b, c⟩ := this
  refine ⟨a, b (by simpa using h), ?_, ?_⟩
  · rw [show r.cloudRho = deps from a, show r.rho = deps.sum from b (by simpa using h)]
  · rw [show r.solved = _ from c]; simp [h]

example : (rhoRound 3 0 [(5 : ℤ), -2, 7] ⟨100, [], []⟩).cloudRho = [5, -2, 7] := by decide

/-! ## Motion of a cloud -/

section motion
variable {K : Type} [Field K] [LinearOrder K] [IsStrictOrderedRing K] [FloorRing K]

/-- the time a cloud motion covers, and when it equals the time step -/
theorem C44_plan_total_partial (isBoris unifDt reinterp : Bool) (custom : Option (ℕ × K)) (tr : TrackerObj K)
    (dtCurr : K) (mode : Option (ℕ × K)) (p : Plan K)
    (hm : substepMode isBoris unifDt custom tr dtCurr = .ok mode) (hp : substepPlan reinterp mode = .ok p)
    (hcustom : ∀ n d, custom = some (n, d) → (n : K) * d = dtCurr)
    (hunif : custom = none → unifDt = true → tr.dt = dtCurr ∧ tr.nSub ≠ some 0)
    (hshort : custom = none → unifDt = false → ∀ m, tr.nSub = some m →
      1 / 2 < dtCurr / (tr.dt / (m : K))) :
    p.total tr.dt = dtCurr := by
  have htot : p.total tr.dt = match mode with
      | none => tr.dt
      | some (n, d) => (n : K) * d := by
    unfold substepPlan at hp
    cases mode with
    | none =>
      cases reinterp
      · simp only [Bool.false_eq_true, if_false, Except.ok.injEq] at hp; subst hp; simp [Plan.total]
      · simp at hp
    | some nd =>
      obtain ⟨n, d⟩ := nd
      cases reinterp <;> simp only [Bool.false_eq_true, if_false, if_true, Except.ok.injEq] at hp <;>
        subst hp <;> simp [Plan.total]
  rw [htot]
  unfold substepMode at hm
  cases custom with
  | some nd =>
    obtain ⟨n, d⟩ := nd
    cases isBoris
    · simp at hm
    · simp only [if_true, Except.ok.injEq] at hm
      subst hm
      exact hcustom n d rfl
  | none =>
    cases unifDt
    · cases isBoris
      · simp at hm
      · cases hs : tr.nSub with
        | none => simp [hs] at hm
        | some m =>
          simp only [hs, Bool.false_eq_true, if_false, if_true, Except.ok.injEq] at hm
          subst hm
          have h1 := hshort rfl rfl m hs
          have hr : 1 ≤ roundHE (dtCurr / (tr.dt / (m : K))) := by
            generalize dtCurr / (tr.dt / (m : K)) = x at h1
            unfold roundHE
            have hf := Int.floor_le x
            by_cases hx1 : (1 : K) ≤ x
            · have : (1 : ℤ) ≤ ⌊x⌋ := Int.le_floor.mpr (by exact_mod_cast hx1)
              dsimp only
              split
              · exact this
              · split
                · omega
                · split <;> omega
            · have h0 : ⌊x⌋ = 0 := by
                rw [Int.floor_eq_iff]
                push_cast
                exact ⟨by linarith, by linarith [not_le.mp hx1]⟩
              dsimp only
              rw [h0]
              push_cast
              rw [sub_zero, if_neg (by linarith), if_pos h1]
          have hn : ((roundHE (dtCurr / (tr.dt / (m : K)))).toNat : K) ≠ 0 := by
            exact_mod_cast (by omega : (roundHE (dtCurr / (tr.dt / (m : K)))).toNat ≠ 0)
          exact mul_div_cancel₀ _ hn
    · obtain ⟨h1, h2⟩ := hunif rfl rfl
      cases hs : tr.nSub with
      | none =>
        simp only [hs, if_true, Except.ok.injEq] at hm
        subst hm
        exact h1
      | some m =>
        simp only [hs, if_true, Except.ok.injEq] at hm
        subst hm
        have hm0 : (m : K) ≠ 0 := by
          have : m ≠ 0 := by rintro rfl; exact h2 hs
          exact_mod_cast this
        dsimp only
        rw [mul_div_cancel₀ _ hm0, h1]

/-- **C44**, observable form. In a region without fields one cloud motion, in every mode that does not
raise, moves every macroparticle on a straight line by `v * Dt_curr` exactly, under the conditions: custom
sub-steps add up to `Dt_curr`; on a uniform grid the tracker was built with the grid's step; on a
non-uniform grid the step is longer than half the target sub-step. -/
theorem C44_free_motion_partial (isBoris unifDt kickMode reinterp : Bool) (custom : Option (ℕ × K))
    (tr : TrackerObj K) (htr : tr.Free) (qm dtCurr : K) (cloudF : MPs K → Fields K) (hF : ∀ s, (cloudF s).Zero)
    (beamE : MPs K → List K × List K) (hB : ∀ s i, (beamE s).1.getD i 0 = 0 ∧ (beamE s).2.getD i 0 = 0)
    (hcustom : ∀ n d, custom = some (n, d) → (n : K) * d = dtCurr)
    (hunif : custom = none → unifDt = true → tr.dt = dtCurr ∧ tr.nSub ≠ some 0)
    (hshort : custom = none → unifDt = false → ∀ m, tr.nSub = some m →
      1 / 2 < dtCurr / (tr.dt / (m : K)))
    (s s' : MPs K) (h : cloudMotion isBoris unifDt custom kickMode reinterp tr qm dtCurr cloudF beamE s = .ok s') :
    s'.live = s.live.map (freeFlight dtCurr) := by
  unfold cloudMotion at h
  cases hm : substepMode isBoris unifDt custom tr dtCurr with
  | error e => rw [hm] at h; cases h
  | ok mode =>
    rw [hm] at h
    dsimp only at h
    have hk : ∃ s1 : MPs K, s1.live = s.live ∧ ∃ p, substepPlan reinterp mode = .ok p ∧
        motionLoop tr cloudF (if kickMode then none else some beamE) p.nint p.dtSub p.next s1 = .ok s' := by
      have hsame : ∀ n d, (kickMP s (beamE s).1 (beamE s).2 (d * (n : K)) qm).live = s.live := by
        intro n d
        unfold kickMP
        rw [live_push]
        apply mapIdx_id
        intro i hi
        funext f
        obtain ⟨b1, b2⟩ := hB s i
        rw [b1, b2]
        cases f <;> simp [Particle.move, Particle.phase]
      cases kickMode with
      | false =>
        dsimp only at h
        cases hp : substepPlan reinterp mode with
        | error e => rw [hp] at h; cases h
        | ok p => rw [hp] at h; exact ⟨s, rfl, p, rfl, h⟩
      | true =>
        cases custom with
        | none => cases h
        | some nd =>
          obtain ⟨n, d⟩ := nd
          dsimp only at h
          cases hp : substepPlan reinterp mode with
          | error e => rw [hp] at h; cases h
          | ok p => rw [hp] at h; exact ⟨_, hsame n d, p, rfl, h⟩
    obtain ⟨s1, hs1, p, hp, hloop⟩ := hk
    have := motionLoop_free tr htr cloudF hF _ (by
      intro b hb s i
      cases kickMode
      · simp only [Bool.false_eq_true, if_false, Option.mem_def, Option.some.injEq] at hb
        subst hb
        exact hB s i
      · simp at hb) p.nint p.dtSub p.next s1 s' hloop
    rw [this, hs1]
    have ht := C44_plan_total_partial isBoris unifDt reinterp custom tr dtCurr mode p hm hp hcustom hunif hshort
    rw [show (⟨p.next, p.nint, p.dtSub⟩ : Plan K) = p from rfl, ht]

/-- the four trackers satisfy the hypothesis of `C44_free_motion_partial` -/
example (qm dt : ℝ) (n : ℕ) (hn : n ≠ 0) :
    (borisObj .none ⟨0, 0, 0⟩ qm dt n).Free ∧ (multipoleObj [0] [0] none none none qm dt n).Free ∧
    (dipoleObj qm 0 dt).Free ∧ (strongObj .none 0 0 qm 1 dt).Free :=
  ⟨borisObj_free qm dt n hn, multipoleObj_free qm dt n hn, dipoleObj_free qm dt, strongObj_free qm 1 dt one_pos⟩

/-- **C44**, refusals: custom sub-steps and non-uniform grids raise for trackers other than the two Boris
ones, kick mode raises without custom sub-steps, and re-interpolation raises when there are no sub-steps. -/
theorem C44_refusals (unifDt kickMode reinterp isBoris : Bool) (custom : Option (ℕ × K)) (tr : TrackerObj K)
    (qm dtCurr : K) (cloudF : MPs K → Fields K) (beamE : MPs K → List K × List K) (s s' : MPs K)
    (h : cloudMotion isBoris unifDt custom kickMode reinterp tr qm dtCurr cloudF beamE s = .ok s') :
    (custom.isSome = true → isBoris = true) ∧ (custom = none → unifDt = false → isBoris = true) ∧
    (kickMode = true → custom.isSome = true) ∧
    (reinterp = true → custom.isSome = true ∨ tr.nSub.isSome = true) := by
  unfold cloudMotion substepMode at h
  cases custom with
  | none =>
    cases unifDt <;> cases isBoris <;> cases kickMode <;> cases reinterp <;> cases hs : tr.nSub <;>
      simp_all [substepPlan]
  | some nd =>
    obtain ⟨n, d⟩ := nd
    cases isBoris <;> simp_all

end motion

/-- no field anywhere -/
def noCloudField : MPs ℚ → Fields ℚ := fun _ => ⟨[], [], [], [], []⟩

/-- no beam field anywhere -/
def noBeamField : MPs ℚ → List ℚ × List ℚ := fun _ => ([], [])

example : ∀ s, (noCloudField s).Zero := fun s i => by simp [noCloudField]

/-- in all four modes, with four sub-steps, the positions after a step of 3 -/
example : ∀ reinterp : Bool, ∃ s', cloudMotion true false none false reinterp (borisObj .none ⟨0, 0, 0⟩ 1 2 4) 1 3
    noCloudField noBeamField exPush = .ok s' ∧ s'.live = exPush.live.map (freeFlight 3) := by
  intro reinterp
  have hex : ∃ s', cloudMotion true false none false reinterp (borisObj .none ⟨0, 0, 0⟩ 1 2 4) 1 3
      noCloudField noBeamField exPush = .ok s' := by
    have : ∀ r : Bool, ∃ s', cloudMotion true false none false r (borisObj .none ⟨0, 0, 0⟩ 1 2 4) 1 3
      noCloudField noBeamField exPush = .ok s' ∧ s'.nmp = 3 := by
      intro r
      cases r <;> exact exists_ok (by decide +kernel)
    obtain ⟨s', h, -⟩ := this reinterp
    exact ⟨s', h⟩
  obtain ⟨s', hs'⟩ := hex
  refine ⟨s', hs', C44_free_motion_partial true false false reinterp none _ (borisObj_free 1 2 4 (by decide)) 1 3
    noCloudField (fun s i => by simp [noCloudField]) noBeamField (fun s i => by simp [noBeamField])
    (fun _ _ h => by cases h) (fun _ h => by cases h) (fun _ _ m hm => ?_) exPush s' hs'⟩
  simp only [borisObj, Option.some.injEq] at hm
  subst hm
  norm_num [borisObj]

/-- **C44 does not hold for short steps of a non-uniform grid**: a time step shorter than half the target
sub-step is rounded to zero sub-steps and the cloud does not move at all, silently. -/
theorem C44_short_step_violated : ∃ s', cloudMotion true false none false false (borisObj .none ⟨0, 0, 0⟩ 1 4 2) 1
    (1 / 2) noCloudField noBeamField exPush = .ok s' ∧ s'.live.map (fun p : Particle ℚ => p .x) = [1, 2, 3] ∧
      (exPush.live.map (freeFlight (1 / 2))).map (fun p : Particle ℚ => p .x) = [3 / 2, 2, 4] :=
  ⟨_, rfl, by decide +kernel, by decide +kernel⟩

/-- **C44 does not hold for a uniform profile loaded from file**: the beam takes its step from the file
(here 2) and is flagged as uniform, while the trackers were built with the step of the configuration (here
1), so in every step of 2 the cloud advances by 1. -/
theorem C44_file_profile_violated : fileUnif [(0 : ℚ), 2, 4, 6, 8] = true ∧ fileDt [(0 : ℚ), 2, 4, 6, 8] 1 = 2 ∧
    ∃ s', cloudMotion true true none false false (borisObj .none ⟨0, 0, 0⟩ 1 1 1) 1 2 noCloudField noBeamField exPush
      = .ok s' ∧ s'.live.map (fun p : Particle ℚ => p .x) = [2, 2, 5] ∧
      (exPush.live.map (freeFlight 2)).map (fun p : Particle ℚ => p .x) = [3, 2, 7] :=
  ⟨by decide +kernel, by decide +kernel, _, rfl, by decide +kernel, by decide +kernel⟩

theorem diffs_range {K : Type} [Field K] (t0 d : K) (n : ℕ) :
    diffs ((List.range n).map (fun k : ℕ => t0 + (k : K) * d)) = List.replicate (n - 1) d := by
  apply List.ext_getElem
  · simp [diffs]
  · intro i h1 h2
    simp [diffs]
    ring

theorem foldl_max_replicate {K : Type} [LinearOrder K] (d : K) (n : ℕ) (a : K) (h : a ≤ d) (hn : n ≠ 0) :
    (List.replicate n d).foldl max a = d := by
  induction n generalizing a with
  | zero => exact absurd rfl hn
  | succ n ih =>
    rw [List.replicate_succ, List.foldl_cons, max_eq_right h]
    cases n with
    | zero => rfl
    | succ n => exact ih d le_rfl (Nat.succ_ne_zero n)

/-- **C44**: a profile file on a uniform grid, starting at any time, is recognised as uniform, and the time step used is
that of the file, whatever is configured. -/
theorem C44_file_step {K : Type} [Field K] [LinearOrder K] [IsStrictOrderedRing K] (t0 d dtCfg : K) (hd : 0 < d)
    (n : ℕ) (hn : 2 ≤ n) :
    let t := (List.range n).map (fun k : ℕ => t0 + (k : K) * d)
    fileUnif t = true ∧ fileDt t dtCfg = d := by
  intro t
  have hu : fileUnif t = true := by
    unfold fileUnif
    simp only [t, diffs_range, List.map_replicate, abs_of_pos hd, List.sum_replicate, List.length_replicate]
    have hn1 : n - 1 ≠ 0 := by omega
    have hc : ((n - 1 : ℕ) : K) ≠ 0 := by exact_mod_cast hn1
    rw [foldl_max_replicate d (n - 1) 0 hd.le hn1, nsmul_eq_mul, mul_div_cancel_left₀ _ hc, sub_self]
    have : ¬ (0 > 1 / 10000 * d) := not_lt.2 (by positivity)
    simp only [this, decide_false, Bool.not_false]
  refine ⟨hu, ?_⟩
  have h0 : t.getD 0 0 = t0 := by
    simp [t, List.getD, List.getElem?_range (show 0 < n by omega)]
  have h1 : t.getD 1 0 = t0 + d := by
    simp [t, List.getD, List.getElem?_range (show 1 < n by omega)]
  unfold fileDt
  rw [if_pos hu, h0, h1]
  ring

example : fileDt [(3 : ℚ), 5, 7, 9] 1 = 2 ∧ fileDt [(3 : ℚ), 5, 8, 9] 1 = 1 := by decide +kernel

/-- **C66.** Kick mode gives the cloud the same velocities as the ordinary mode: without magnetic field and
without cloud field, applying the beam field once as an instantaneous kick or during all the sub-steps
changes every velocity by the same amount. -/
theorem C66_kick_mode {K : Type} [Field K] [LinearOrder K] [IsStrictOrderedRing K] [FloorRing K] (unifDt : Bool)
    (n : ℕ) (d qm dt dtCurr : K) (nSub : ℕ) (hn : nSub ≠ 0)
    (cloudF : MPs K → Fields K) (hF : ∀ s, (cloudF s).Zero) (beamE : MPs K → List K × List K)
    (s s1 s2 : MPs K)
    (h1 : cloudMotion true unifDt (some (n, d)) true false (borisObj .none ⟨0, 0, 0⟩ qm dt nSub) qm dtCurr cloudF beamE s
      = .ok s1)
    (h2 : cloudMotion true unifDt (some (n, d)) false false (borisObj .none ⟨0, 0, 0⟩ qm dt nSub) qm dtCurr cloudF beamE s
      = .ok s2) :
    s1.live.map (fun p : Particle K => (p .vx, p .vy, p .vz)) = s2.live.map (fun p : Particle K => (p .vx, p .vy, p .vz)) ∧
    s1.live.map (fun p : Particle K => p .vx)
      = s.live.mapIdx (fun i p => p .vx + qm * (beamE s).1.getD i 0 * ((n : K) * d)) := by
  have hfree := borisObj_free qm dt nSub hn
  have e1 : motionLoop (borisObj .none ⟨0, 0, 0⟩ qm dt nSub) cloudF none n (some d) 1
      (kickMP s (beamE s).1 (beamE s).2 (d * (n : K)) qm) = .ok s1 := h1
  have e2 : motionLoop (borisObj .none ⟨0, 0, 0⟩ qm dt nSub) cloudF (some beamE) n (some d) 1 s = .ok s2 := h2
  have l1 := motionLoop_free _ hfree cloudF hF none (by simp) n (some d) 1 _ s1 e1
  have hk : (kickMP s (beamE s).1 (beamE s).2 (d * (n : K)) qm).live = s.live.mapIdx (fun i p => Particle.move p
      ⟨p .x, p .y, p .z, p .vx + (beamE s).1.getD i 0 * (d * (n : K)) * qm,
        p .vy + (beamE s).2.getD i 0 * (d * (n : K)) * qm, p .vz⟩) := by
    unfold kickMP
    rw [live_push]
    rfl
  have hB : ∀ x y : K, (BSrc.none : BSrc K).getB ⟨0, 0, 0⟩ x y = ⟨0, 0, 0⟩ := by
    intro x y; simp [BSrc.getB]
  simp only [motionLoop, motionOne, motionFields, borisObj, borisCustomDt, Except.ok.injEq] at e2
  have hpar : ∀ (i : ℕ) (hi : i < s1.live.length), ∃ (hs : i < s.live.length) (h2 : i < s2.live.length),
      s1.live[i] .vx = s.live[i] .vx + qm * (beamE s).1.getD i 0 * ((n : K) * d) ∧
      s1.live[i] .vx = s2.live[i] .vx ∧ s1.live[i] .vy = s2.live[i] .vy ∧ s1.live[i] .vz = s2.live[i] .vz := by
    intro i hi
    have hi1 : i < s.live.length := by
      rw [l1, hk] at hi; simpa using hi
    have hinm : i < s.nmp := by simpa using hi1
    have hi2 : i < s2.live.length := by
      rw [← e2, live_push]; simpa using hinm
    refine ⟨hi1, hi2, ?_⟩
    have g1 : s1.live[i] = freeFlight (Plan.total ⟨1, n, some d⟩ (borisObj .none ⟨0, 0, 0⟩ qm dt nSub).dt)
        (Particle.move s.live[i] ⟨s.live[i] .x, s.live[i] .y, s.live[i] .z,
          s.live[i] .vx + (beamE s).1.getD i 0 * (d * (n : K)) * qm,
          s.live[i] .vy + (beamE s).2.getD i 0 * (d * (n : K)) * qm, s.live[i] .vz⟩) := by
      simp only [l1, hk, List.getElem_map, List.getElem_mapIdx]
    have g2 : s2.live[i] = Particle.move s.live[i] (borisSub qm d
        ((⟨((cloudF s).addE s.nmp (beamE s).1 (beamE s).2).ex, ((cloudF s).addE s.nmp (beamE s).1 (beamE s).2).ey,
          []⟩ : EArr K).at i) ((BSrc.none : BSrc K).getB ⟨0, 0, 0⟩) n (Particle.phase s.live[i])) := by
      simp only [← e2, live_push, List.getElem_mapIdx]
    have hE : (⟨((cloudF s).addE s.nmp (beamE s).1 (beamE s).2).ex, ((cloudF s).addE s.nmp (beamE s).1 (beamE s).2).ey,
          []⟩ : EArr K).at i = ⟨(beamE s).1.getD i 0, (beamE s).2.getD i 0, 0⟩ := by
      unfold EArr.at Fields.addE
      dsimp only
      have hh : ∀ (a b : List K), (∀ i, a.getD i 0 = 0) →
          ((List.range s.nmp).map (fun i : ℕ => a.getD i 0 + b.getD i 0)).getD i 0 = b.getD i 0 := by
        intro a b ha
        rw [List.getD_eq_getElem _ _ (by simpa using hinm)]
        simp only [List.getElem_map, List.getElem_range, ha, zero_add]
      rw [hh _ _ (fun i => (hF s i).1), hh _ _ (fun i => (hF s i).2.1)]
      rfl
    rw [hE, borisSub_congr _ _ _ _ _ hB, borisSub_noB] at g2
    rw [g1, g2]
    refine ⟨?_, ?_, ?_, ?_⟩ <;> simp only [freeFlight, Particle.move, Particle.phase] <;> ring
  have hlen : s1.live.length = s2.live.length := by
    have : s1.live.length = s.nmp := by rw [l1, hk]; simp
    rw [this, ← e2, live_push]; simp
  constructor
  · apply List.ext_getElem (by simpa using hlen)
    intro i h1 h2
    obtain ⟨_, _, _, a, b, c⟩ := hpar i (by simpa using h1)
    simp only [List.getElem_map, a, b, c]
  · apply List.ext_getElem (by rw [l1, hk]; simp)
    intro i h1 h2
    obtain ⟨_, _, a, _⟩ := hpar i (by simpa using h1)
    simp only [List.getElem_map, List.getElem_mapIdx, a]

example : ∃ s1 s2, cloudMotion true true (some (4, 1 / 2)) true false (borisObj .none ⟨0, 0, 0⟩ 3 1 1) 3 2 noCloudField
      (fun _ => ([1, 2, 3], [0, -1, 0])) exPush = .ok s1 ∧
    cloudMotion true true (some (4, 1 / 2)) false false (borisObj .none ⟨0, 0, 0⟩ 3 1 1) 3 2 noCloudField
      (fun _ => ([1, 2, 3], [0, -1, 0])) exPush = .ok s2 ∧ s1.live.map (fun p : Particle ℚ => p .vx) = [7, 12, 20] :=
  ⟨_, _, rfl, rfl, by decide +kernel⟩

end PyECLOUD
