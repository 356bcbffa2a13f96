import Verif.Lemmas.RefineTool
import Verif.Lemmas.Resample
import Verif.Props.Resample
import Verif.Props.BeamCharge

/-!
# C180: beam profiles with refined time steps
-/

namespace PyECLOUD

set_option linter.unusedSectionVars false

variable {K : Type} [Field K] [LinearOrder K] [IsStrictOrderedRing K] [FloorRing K]

/-- **C180** (which times). The times of the refined profile are those of the uniform one and, in every slot, those that divide the time steps that start in the
window into equal parts. -/
theorem C180_times (nSlots r : ℕ) (bSpac tEnd dt t0 t1 : K) (hdt : 0 < dt) (hb : 0 < bSpac) (hE : 0 ≤ tEnd) (hr : 0 < r) (t : K) :
    t ∈ refinedAxis nSlots bSpac tEnd dt r t0 t1 ↔ t ∈ timeGrid nSlots bSpac tEnd dt ∨
      ∃ i < nSlots, ∃ s ∈ timeGrid nSlots bSpac tEnd dt, t0 ≤ s ∧ s ≤ t1 ∧ ∃ j : ℕ, 0 < j ∧ j < r ∧ t = s + (j : K) * (dt / (r : K)) + (i : K) * bSpac := by
  obtain ⟨-, -, hmono, -, -⟩ := C64_time_grid nSlots bSpac tEnd dt hdt hb hE
  unfold refinedAxis
  rw [(List.perm_insertionSort _ _).mem_iff, List.mem_append]
  refine or_congr Iff.rfl ?_
  obtain ⟨r, rfl⟩ := Nat.exists_eq_succ_of_ne_zero hr.ne'
  rw [fineSingle_flat _ _ _ _ _ hmono]
  simp only [List.mem_flatMap, List.mem_map, List.mem_range, Nat.succ_eq_add_one]
  constructor
  · rintro ⟨i, hi, x, ⟨s, hs, hx⟩, rfl⟩
    by_cases hw : t0 ≤ s ∧ s ≤ t1
    · rw [if_pos hw, finePoints_eq] at hx
      obtain ⟨j, hj, rfl⟩ := List.mem_map.1 hx
      rw [List.mem_range] at hj
      refine ⟨i, hi, s, hs, hw.1, hw.2, j + 1, by omega, by omega, ?_⟩
      push_cast
      ring
    · rw [if_neg hw] at hx
      cases hx
  · rintro ⟨i, hi, s, hs, h1, h2, j, j1, j2, rfl⟩
    refine ⟨i, hi, s + (j : K) * (dt / ((r + 1 : ℕ) : K)), ⟨s, hs, ?_⟩, by ring⟩
    rw [if_pos ⟨h1, h2⟩, finePoints_eq]
    refine List.mem_map.2 ⟨j - 1, List.mem_range.2 (by omega), ?_⟩
    rw [Nat.cast_sub (by omega)]
    push_cast
    ring

/-- **C180** (time steps, partial). With a bunch spacing of a whole number of time steps and a window that ends before the next bunch slot, the refined times increase,
so no time step is zero or negative. Missing: longer windows (`C180_overlap_violated`) and other spacings. -/
theorem C180_increasing_partial (nSlots m r : ℕ) (bSpac tEnd dt t0 t1 : K) (hdt : 0 < dt) (hE : 0 ≤ tEnd) (hm : 0 < m) (hb : bSpac = (m : K) * dt)
    (h1 : t1 < bSpac) (hr : 0 < r) : (refinedAxis nSlots bSpac tEnd dt r t0 t1).Pairwise (· < ·) := by
  rw [(refinedAxis_cells nSlots m r bSpac tEnd dt t0 t1 hdt hE hm hb h1 hr).1]
  exact cellsAxis_lt nSlots m dt hdt r hr t0 t1 0 _

/-- **C180** fails for a window that reaches into the next slot: the same time appears twice, i.e. a time step of zero length. -/
theorem C180_overlap_violated : refinedAxis 2 (1 : ℚ) 0 (1 / 2) 2 0 1 =
    [0, 1 / 4, 1 / 2, 3 / 4, 1, 5 / 4, 5 / 4, 3 / 2, 7 / 4, 2, 9 / 4, 5 / 2] := by
  decide +kernel

theorem timeGrid_zip (nSlots : ℕ) (bSpac tEnd dt : K) (val : List K) (hv : val.length = (timeGrid nSlots bSpac tEnd dt).length) (k : ℕ) (a : K)
    (ha : val[k]? = some a) : ((timeGrid nSlots bSpac tEnd dt).zip val)[k]? = some ((k : K) * dt, a) := by
  have hk : k < (timeGrid nSlots bSpac tEnd dt).length := by rw [← hv]; exact (List.getElem?_eq_some_iff.1 ha).1
  have : (timeGrid nSlots bSpac tEnd dt)[k]? = some ((k : K) * dt) := by
    unfold timeGrid arange at hk ⊢
    rw [List.length_map, List.length_range] at hk
    rw [List.getElem?_map, List.getElem?_range hk]
    rfl
  rw [List.getElem?_zip_eq_some]
  exact ⟨this, ha⟩

/-- the interpolated line density within a step of the uniform axis -/
theorem interp_cell (nSlots : ℕ) (bSpac tEnd dt : K) (hdt : 0 < dt) (hb : 0 < bSpac) (hE : 0 ≤ tEnd) (val : List K)
    (hv : val.length = (timeGrid nSlots bSpac tEnd dt).length) (k : ℕ) (a b : K) (ha : val[k]? = some a) (hb' : val[k + 1]? = some b) (lam : K)
    (h0 : 0 ≤ lam) (h1 : lam ≤ 1) :
    interpVal ((timeGrid nSlots bSpac tEnd dt).zip val) ((k : K) * dt + lam * dt) = a + lam * (b - a) := by
  obtain ⟨-, -, hmono, -, -⟩ := C64_time_grid nSlots bSpac tEnd dt hdt hb hE
  refine interpVal_curve _ (zip_rising _ _ hmono) _ _ ⟨k, _, _, lam, timeGrid_zip nSlots bSpac tEnd dt val hv k a ha,
    timeGrid_zip nSlots bSpac tEnd dt val hv (k + 1) b hb', h0, h1, ?_, ?_⟩
  · push_cast; ring
  · dsimp only; ring

theorem interp_node (nSlots : ℕ) (bSpac tEnd dt : K) (hdt : 0 < dt) (hb : 0 < bSpac) (hE : 0 ≤ tEnd) (val : List K)
    (hv : val.length = (timeGrid nSlots bSpac tEnd dt).length) (k : ℕ) (a : K) (ha : val[k]? = some a) :
    interpVal ((timeGrid nSlots bSpac tEnd dt).zip val) ((k : K) * dt) = a := by
  obtain ⟨h2, -, -, -, -⟩ := C64_time_grid nSlots bSpac tEnd dt hdt hb hE
  have hk : k < val.length := (List.getElem?_eq_some_iff.1 ha).1
  by_cases hk1 : k + 1 < val.length
  · have := interp_cell nSlots bSpac tEnd dt hdt hb hE val hv k a _ ha (List.getElem?_eq_getElem hk1) 0 le_rfl zero_le_one
    simpa using this
  · obtain ⟨j, rfl⟩ : ∃ j, k = j + 1 := ⟨k - 1, by omega⟩
    have := interp_cell nSlots bSpac tEnd dt hdt hb hE val hv j _ a (List.getElem?_eq_getElem (by omega)) ha 1 zero_le_one le_rfl
    rw [show ((j + 1 : ℕ) : K) * dt = (j : K) * dt + 1 * dt by push_cast; ring, this]
    ring

/-- **C180** (values). The tool gives a line density for every time of the refined axis; at the times of the uniform axis it is the one given, and within the steps
of the uniform axis it lies on the straight line between them. -/
theorem C180_values (nSlots r : ℕ) (bSpac tEnd dt t0 t1 : K) (hdt : 0 < dt) (hb : 0 < bSpac) (hE : 0 ≤ tEnd) (val : List K)
    (hv : val.length = (timeGrid nSlots bSpac tEnd dt).length) :
    ∃ out, refinedProfile nSlots bSpac tEnd dt r t0 t1 val = .ok out ∧ out.length = (refinedAxis nSlots bSpac tEnd dt r t0 t1).length ∧
      ∀ (i : ℕ) (t v : K), (refinedAxis nSlots bSpac tEnd dt r t0 t1)[i]? = some t → out[i]? = some v →
        ∀ (k : ℕ) (a b lam : K), val[k]? = some a → val[k + 1]? = some b → 0 ≤ lam → lam ≤ 1 → t = (k : K) * dt + lam * dt → v = a + lam * (b - a) := by
  obtain ⟨h2, -, -, -, -⟩ := C64_time_grid nSlots bSpac tEnd dt hdt hb hE
  have hne : (timeGrid nSlots bSpac tEnd dt).zip val ≠ [] := by
    intro h
    have := congrArg List.length h
    rw [List.length_zip, hv, min_self] at this
    simp at this
    rw [this] at h2
    simp at h2
  refine ⟨_, mapM_val _ (interpVal ((timeGrid nSlots bSpac tEnd dt).zip val)) _ (fun x _ => npInterp_val _ hne x), by rw [List.length_map], ?_⟩
  intro i t v ht hv' k a b lam ha hb' h0 h1 e
  rw [List.getElem?_map, ht, Option.map_some] at hv'
  rw [← Option.some.inj hv', e]
  exact interp_cell nSlots bSpac tEnd dt hdt hb hE val hv k a b ha hb' lam h0 h1

/-- the charge of the refined profile, with a factor and a constant -/
theorem refined_charge (nSlots m r : ℕ) (bSpac tEnd dt t0 t1 : K) (hdt : 0 < dt) (hE : 0 ≤ tEnd) (hm : 0 < m) (hb : bSpac = (m : K) * dt)
    (h1 : t1 < bSpac) (hr : 0 < r) (F : ℕ → K) (fact coast : K)
    (hflat : ∀ k, k + 1 < (timeGrid nSlots bSpac tEnd dt).length → refinedCell nSlots m dt t0 t1 k = false → F (k + 1) = F k) :
    profileCharge ((refinedAxis nSlots bSpac tEnd dt r t0 t1).map (fun t =>
        (t, fact * interpVal ((timeGrid nSlots bSpac tEnd dt).zip ((List.range (timeGrid nSlots bSpac tEnd dt).length).map F)) t + coast))) =
      ∑ k ∈ Finset.range ((timeGrid nSlots bSpac tEnd dt).length - 1), (fact * F k + coast) * dt +
        fact * (dt * (((r : K) - 1) / (2 * (r : K)))) * (F ((timeGrid nSlots bSpac tEnd dt).length - 1) - F 0) := by
  have hb0 : 0 < bSpac := by rw [hb]; have : (0 : K) < (m : K) := by exact_mod_cast hm
                             positivity
  obtain ⟨h2, -, -, -, -⟩ := C64_time_grid nSlots bSpac tEnd dt hdt hb0 hE
  obtain ⟨hax, hlt⟩ := refinedAxis_cells nSlots m r bSpac tEnd dt t0 t1 hdt hE hm hb h1 hr
  rw [hax]
  set N := (timeGrid nSlots bSpac tEnd dt).length with hN
  set val := (List.range N).map F with hval
  have hvl : val.length = (timeGrid nSlots bSpac tEnd dt).length := by rw [hval, List.length_map, List.length_range]
  have hget : ∀ k, k < N → val[k]? = some (F k) := by
    intro k hk
    rw [hval, List.getElem?_map, List.getElem?_range hk]
    rfl
  obtain ⟨n, hn⟩ : ∃ n, N = n + 1 := ⟨N - 1, by omega⟩
  set v : K → K := fun t => fact * interpVal ((timeGrid nSlots bSpac tEnd dt).zip val) t + coast with hvdef
  have hV : ∀ k, k < N → v ((k : K) * dt) = fact * F k + coast := by
    intro k hk
    rw [hvdef]
    dsimp only
    rw [interp_node nSlots bSpac tEnd dt hdt hb0 hE val hvl k (F k) (hget k hk)]
  have hr' : (0 : K) < (r : K) := by exact_mod_cast hr
  have hmain := cells_charge nSlots m dt r hr t0 t1 v (fun k => v ((k : K) * dt)) (fun k => rfl) n 0 (by
    intro i hi hc
    rw [Nat.zero_add] at hc ⊢
    have hi2 : i < nSlots * m := by
      unfold refinedCell at hc
      simp only [Bool.and_eq_true, decide_eq_true_eq] at hc
      exact hc.1
    have hin : i < n := by omega
    refine ⟨hin, fun j hj => ?_⟩
    have hjr : (j : K) / (r : K) ≤ 1 := by
      rw [div_le_one hr']
      exact_mod_cast hj
    have h3 := interp_cell nSlots bSpac tEnd dt hdt hb0 hE val hvl i (F i) (F (i + 1)) (hget i (by omega)) (hget (i + 1) (by omega)) ((j : K) / (r : K))
      (by positivity) hjr
    rw [hV i (by omega), hV (i + 1) (by omega), hvdef]
    dsimp only
    rw [show (i : K) * dt + (j : K) * (dt / (r : K)) = (i : K) * dt + (j : K) / (r : K) * dt by field_simp, h3]
    ring)
  rw [← hn] at hmain
  rw [hmain, hn, Nat.add_sub_cancel]
  have hterm : ∀ k ∈ Finset.range n, dt * (v (((0 + k : ℕ) : K) * dt) + (if refinedCell nSlots m dt t0 t1 (0 + k) = true then
      (v (((0 + k + 1 : ℕ) : K) * dt) - v (((0 + k : ℕ) : K) * dt)) * (((r : K) - 1) / (2 * (r : K))) else 0)) =
      (fact * F k + coast) * dt + fact * (dt * (((r : K) - 1) / (2 * (r : K)))) * (F (k + 1) - F k) := by
    intro k hk
    rw [Finset.mem_range] at hk
    rw [Nat.zero_add, hV k (by omega), hV (k + 1) (by omega)]
    by_cases hc : refinedCell nSlots m dt t0 t1 k = true
    · rw [if_pos hc]; ring
    · rw [if_neg hc, hflat k (by omega) (by simpa using hc)]; ring
  rw [Finset.sum_congr rfl hterm, Finset.sum_add_distrib, ← Finset.mul_sum, Finset.sum_range_sub]

omit [LinearOrder K] [IsStrictOrderedRing K] [FloorRing K] in
theorem profileCharge_sum : ∀ l : List (K × K), profileCharge l =
    ((List.range (l.length - 1)).map (fun i => (l.getD i 0).2 * ((l.getD (i + 1) 0).1 - (l.getD i 0).1))).sum
  | [] => rfl
  | [a] => rfl
  | a :: b :: l => by
    have ih := profileCharge_sum (b :: l)
    rw [show profileCharge (a :: b :: l) = a.2 * (b.1 - a.1) + profileCharge (b :: l) from rfl, ih]
    simp only [List.length_cons, Nat.add_sub_cancel]
    rw [List.range_succ_eq_map, List.map_cons, List.sum_cons, List.map_map]
    rfl

/-- what passes over a run with any profile -/
theorem run_profile (wt bSpac : ℝ) (t lam : List ℝ) (u : Bool) (hb : 0 < bSpac) (ht : t.Pairwise (· < ·)) (hl : lam.length = t.length) (fuel : ℕ)
    (hfuel : t.length < fuel) :
    ∃ b, runLoop ⟨t, lam, bSpac, u⟩ (fun b q => .ok (q + wt * (b.lamCurr.getD 0) * (b.dtCurr.getD 0))) none fuel BeamSt.init 0
      = .ok (b, wt * profileCharge (t.zip lam)) := by
  set g : BeamGrid ℝ := ⟨t, lam, bSpac, u⟩ with hg
  obtain ⟨tr, ⟨hlen, htr⟩, hrun⟩ := C40_run g hb ht hl
  have h := hrun ℝ (fun b q => .ok (q + wt * (b.lamCurr.getD 0) * (b.dtCurr.getD 0))) 0 fuel hfuel.le (by omega)
  rw [foldlM_sum (fun b : BeamSt ℝ => wt * (b.lamCurr.getD 0) * (b.dtCurr.getD 0))] at h
  refine ⟨tr.getLastD BeamSt.init, h.trans ?_⟩
  simp only [zero_add]
  congr 2
  rw [profileCharge_sum, ← List.sum_map_mul_left, List.length_zip, hl, min_self]
  congr 1
  refine List.ext_getElem? fun i => ?_
  rw [List.getElem?_map, List.getElem?_map]
  have hlen' : tr.length = t.length - 1 := hlen
  by_cases hi : i < t.length - 1
  · rw [List.getElem?_range hi, List.getElem?_eq_getElem (by omega : i < tr.length)]
    obtain ⟨-, -, hl', t0, t1, e0, e1, e2, -, -⟩ := htr i tr[i] (List.getElem?_eq_getElem (by omega))
    have e0' : t[i]? = some t0 := e0
    have e1' : t[i + 1]? = some t1 := e1
    have hlam : lam[i]? = some lam[i] := List.getElem?_eq_getElem (by omega)
    have hlam1 : lam[i + 1]? = some lam[i + 1] := List.getElem?_eq_getElem (by omega)
    have z0 : (t.zip lam)[i]? = some (t0, lam[i]) := by rw [List.getElem?_zip_eq_some]; exact ⟨e0', hlam⟩
    have z1 : (t.zip lam)[i + 1]? = some (t1, lam[i + 1]) := by rw [List.getElem?_zip_eq_some]; exact ⟨e1', hlam1⟩
    have hlg : g.lam[i]? = some lam[i] := hlam
    simp only [Option.map_some, hl', e2, hlg, Option.getD_some, List.getD_eq_getElem?_getD, z0, z1]
    congr 1
    ring
  · rw [List.getElem?_eq_none (by omega : tr.length ≤ i), List.getElem?_eq_none (by rw [List.length_range]; omega)]
    rfl

/-- the line density of the tool is that of PyECLOUD without factor and coasting beam -/
theorem toolProfile_eq (c t bSpac tOffs σ : ℝ) (ppb : List ℝ) (hp : ∀ p ∈ ppb, 0 ≤ p) :
    toolProfile c t bSpac tOffs ppb σ = lineDensity c t bSpac tOffs 1 0 ppb σ := by
  unfold toolProfile lineDensity
  rw [one_mul, add_zero]
  generalize (0 : ℝ) = w
  generalize (0 : ℕ) = i
  induction ppb generalizing w i with
  | nil => rfl
  | cons p l ih =>
    simp only [sigmazVect, List.map_cons, List.zip_cons_cons, trainAt]
    have hb : bunchAt c t tOffs bSpac i p σ = bunchAt c t tOffs bSpac i p (if p > 0 then σ else 0) := by
      by_cases h0 : p > 0
      · rw [if_pos h0]
      · have : p = 0 := le_antisymm (not_lt.1 h0) (hp p (by simp))
        subst this
        simp [bunchAt]
    rw [hb]
    exact ih (fun q hq => hp q (List.mem_cons_of_mem _ hq)) _ _

theorem zip_map_self {α β : Type} (f : α → β) (l : List α) : l.zip (l.map f) = l.map (fun a => (a, f a)) := by
  induction l with
  | nil => rfl
  | cons a l ih => rw [List.map_cons, List.zip_cons_cons, ih, List.map_cons]

omit [FloorRing K] in
theorem refinedCell_of (nSlots m : ℕ) (dt t0 t1 : K) (k i q : ℕ) (hi : i < nSlots) (hq : q < m) (hk : k = i * m + q) (h0 : t0 ≤ (q : K) * dt)
    (h1 : (q : K) * dt ≤ t1) : refinedCell nSlots m dt t0 t1 k = true := by
  have e : k % m = q := by rw [hk, Nat.mul_comm, Nat.mul_add_mod, Nat.mod_eq_of_lt hq]
  have : (i + 1) * m ≤ nSlots * m := Nat.mul_le_mul_right _ hi
  unfold refinedCell
  rw [e]
  simp only [Bool.and_eq_true, decide_eq_true_eq]
  exact ⟨by rw [add_mul] at this; omega, h0, h1⟩

/-- **C180** (charge, partial). If the line density changes only over time steps that are divided, the refined profile carries the charge of the uniform one, up to a part
of a time step of the difference between the line densities at the two ends, hence exactly if they agree. Missing: as `C180_increasing_partial`. -/
theorem C180_charge_partial (nSlots m r : ℕ) (bSpac tEnd dt t0 t1 : K) (hdt : 0 < dt) (hE : 0 ≤ tEnd) (hm : 0 < m) (hb : bSpac = (m : K) * dt)
    (h1 : t1 < bSpac) (hr : 0 < r) (val : List K) (hv : val.length = (timeGrid nSlots bSpac tEnd dt).length)
    (hflat : ∀ k, k + 1 < val.length → val.getD (k + 1) 0 ≠ val.getD k 0 →
      ∃ i < nSlots, ∃ q < m, k = i * m + q ∧ t0 ≤ (q : K) * dt ∧ (q : K) * dt ≤ t1) :
    ∃ out, refinedProfile nSlots bSpac tEnd dt r t0 t1 val = .ok out ∧
      profileCharge ((refinedAxis nSlots bSpac tEnd dt r t0 t1).zip out) = profileCharge ((timeGrid nSlots bSpac tEnd dt).zip val) +
        dt * (((r : K) - 1) / (2 * (r : K))) * (val.getD (val.length - 1) 0 - val.getD 0 0) := by
  have hb0 : 0 < bSpac := by rw [hb]; have : (0 : K) < (m : K) := by exact_mod_cast hm
                             positivity
  obtain ⟨h2, hget, -, -, -⟩ := C64_time_grid nSlots bSpac tEnd dt hdt hb0 hE
  have hne : (timeGrid nSlots bSpac tEnd dt).zip val ≠ [] := by
    intro h
    have := congrArg List.length h
    rw [List.length_zip, hv, min_self] at this
    simp at this
    rw [this] at h2
    simp at h2
  refine ⟨_, mapM_val _ (interpVal ((timeGrid nSlots bSpac tEnd dt).zip val)) _ (fun x _ => npInterp_val _ hne x), ?_⟩
  have hval : val = (List.range (timeGrid nSlots bSpac tEnd dt).length).map (fun k => val.getD k 0) := by
    refine List.ext_getElem (by simp [hv]) fun k hk hk' => ?_
    rw [List.getElem_map, List.getElem_range, List.getD_eq_getElem _ _ hk]
  have hmain := refined_charge nSlots m r bSpac tEnd dt t0 t1 hdt hE hm hb h1 hr (fun k => val.getD k 0) 1 0 (by
    intro k hk hc
    by_contra hn
    obtain ⟨i, hi, q, hq, e, g0, g1⟩ := hflat k (by rw [hv]; exact hk) hn
    rw [refinedCell_of nSlots m dt t0 t1 k i q hi hq e g0 g1] at hc
    cases hc)
  rw [← hval] at hmain
  simp only [one_mul, add_zero] at hmain
  rw [zip_map_self, hmain]
  rw [profileCharge_sum, sum_range_map, List.length_zip, hv, min_self]
  congr 1
  refine Finset.sum_congr rfl fun k hk => ?_
  rw [Finset.mem_range] at hk
  have a1 := timeGrid_zip nSlots bSpac tEnd dt val hv k _ (List.getElem?_eq_getElem (by omega))
  have a2 := timeGrid_zip nSlots bSpac tEnd dt val hv (k + 1) _ (List.getElem?_eq_getElem (by omega))
  simp only [List.getD_eq_getElem?_getD, a1, a2, Option.getD_some, List.getElem?_eq_getElem (show k < val.length by omega)]
  push_cast
  ring

theorem toolProfile_zero (c t bSpac tOffs σ : ℝ) (ppb : List ℝ) (hσ : 0 < σ) (hp : ∀ p ∈ ppb, 0 ≤ p)
    (h : ∀ i < ppb.length, 10 * σ ≤ |c * t - c * (tOffs + (i : ℝ) * bSpac)|) : toolProfile c t bSpac tOffs ppb σ = 0 := by
  rw [toolProfile_eq _ _ _ _ _ _ hp, C65_bunch_train _ _ _ _ _ _ _ hσ _ hp, Finset.sum_eq_zero]
  · ring
  · intro i hi
    rw [Finset.mem_range] at hi
    unfold gaussBunch
    rw [if_neg (not_lt.2 (h i hi))]

/-- between the windows of the bunches the line density vanishes -/
theorem toolProfile_between (c bSpac tOffs σ t0 t1 x : ℝ) (ppb : List ℝ) (hσ : 0 < σ) (hp : ∀ p ∈ ppb, 0 ≤ p) (hc : 0 < c)
    (h0 : c * t0 + 10 * σ ≤ c * tOffs) (h1 : c * tOffs + 10 * σ ≤ c * t1) (s : ℕ)
    (hbefore : ∀ i < ppb.length, s < i + 1 → x ≤ t0 + (i : ℝ) * bSpac ∨ t1 + (i : ℝ) * bSpac ≤ x)
    (hafter : ∀ i < ppb.length, i + 1 ≤ s → t1 + (i : ℝ) * bSpac ≤ x) : toolProfile c x bSpac tOffs ppb σ = 0 := by
  refine toolProfile_zero c x bSpac tOffs σ ppb hσ hp fun i hi => ?_
  have key : x ≤ t0 + (i : ℝ) * bSpac ∨ t1 + (i : ℝ) * bSpac ≤ x := by
    rcases Nat.lt_or_ge s (i + 1) with h | h
    · exact hbefore i hi h
    · exact Or.inr (hafter i hi h)
  rcases key with h | h
  · have := mul_le_mul_of_nonneg_left h hc.le
    rw [le_abs]
    right
    nlinarith
  · have := mul_le_mul_of_nonneg_left h hc.le
    rw [le_abs]
    left
    nlinarith

/-- **C180** (intensity, partial). If every bunch, with ten bunch lengths to either side, lies in the refined window, a run over the refined profile sees the intensity asked
for with the accuracy of the uniform profile (C177), whatever the number of parts the steps are divided in. Missing: as `C180_increasing_partial`. -/
theorem C180_intensity_partial (c tOffs bSpac tEnd dt t0 t1 factBeam coast σ : ℝ) (m r : ℕ) (ppb : List ℝ) (hc : 0 < c) (hdt : 0 < dt) (hE : 0 ≤ tEnd)
    (hm : 0 < m) (hb : bSpac = (m : ℝ) * dt) (ht0 : 0 ≤ t0) (ht1 : t1 < bSpac) (hr : 0 < r) (hσ : 0 < σ) (hp : ∀ p ∈ ppb, 0 ≤ p)
    (h0 : c * (t0 + dt) + 10 * σ ≤ c * tOffs) (h1 : c * tOffs + 10 * σ ≤ c * t1) (fuel : ℕ)
    (hfuel : (refinedAxis ppb.length bSpac tEnd dt r t0 t1).length < fuel) :
    ∃ out b N, refinedProfile ppb.length bSpac tEnd dt r t0 t1
        ((timeGrid ppb.length bSpac tEnd dt).map (fun t => toolProfile c t bSpac tOffs ppb σ)) = .ok out ∧
      runLoop ⟨refinedAxis ppb.length bSpac tEnd dt r t0 t1, out.map (fun v => factBeam * v + coast), bSpac, false⟩
        (fun b q => .ok (q + c * (b.lamCurr.getD 0) * (b.dtCurr.getD 0))) none fuel BeamSt.init 0 = .ok (b, N) ∧
      |N - (factBeam * ppb.sum + coast * (c * (((timeGrid ppb.length bSpac tEnd dt).length - 1 : ℕ) * dt)))| ≤
        |factBeam| * ppb.sum * chargeErr σ (c * dt) := by
  have hm' : (0 : ℝ) < (m : ℝ) := by exact_mod_cast hm
  have hb0 : 0 < bSpac := by rw [hb]; positivity
  obtain ⟨h2, hget, -, -, -⟩ := C64_time_grid ppb.length bSpac tEnd dt hdt hb0 hE
  obtain ⟨-, hlt⟩ := refinedAxis_cells ppb.length m r bSpac tEnd dt t0 t1 hdt hE hm hb ht1 hr
  set N := (timeGrid ppb.length bSpac tEnd dt).length with hN
  set F : ℕ → ℝ := fun k => toolProfile c ((k : ℝ) * dt) bSpac tOffs ppb σ with hF
  have hval : (timeGrid ppb.length bSpac tEnd dt).map (fun t => toolProfile c t bSpac tOffs ppb σ) = (List.range N).map F := by
    refine List.ext_getElem (by simp [hN]) fun k hk hk' => ?_
    rw [List.getElem_map, List.getElem_map, List.getElem_range]
    rw [List.length_map] at hk
    rw [hget k _ (List.getElem?_eq_getElem hk)]
  rw [hval]
  have hne : (timeGrid ppb.length bSpac tEnd dt).zip ((List.range N).map F) ≠ [] := by
    intro h
    have := congrArg List.length h
    rw [List.length_zip, List.length_map, List.length_range, ← hN, min_self] at this
    simp at this
    omega
  have hslot : ∀ i j : ℕ, i + 1 ≤ j → t1 + (i : ℝ) * bSpac ≤ (j : ℝ) * bSpac := by
    intro i j hij
    have : ((i : ℝ) + 1) * bSpac ≤ (j : ℝ) * bSpac := mul_le_mul_of_nonneg_right (by exact_mod_cast hij) hb0.le
    linarith
  have hzero : ∀ (s : ℕ) (x : ℝ), (s : ℝ) * bSpac ≤ x → (x ≤ t0 + dt + (s : ℝ) * bSpac ∨ ppb.length ≤ s ∨
      (t1 + (s : ℝ) * bSpac ≤ x ∧ x ≤ ((s : ℝ) + 1) * bSpac)) → toolProfile c x bSpac tOffs ppb σ = 0 := by
    intro s x hx hcase
    refine toolProfile_between c bSpac tOffs σ (t0 + dt) t1 x ppb hσ hp hc h0 h1 s (fun i hi hsi => ?_) (fun i hi hsi => (hslot i s hsi).trans hx)
    rcases hcase with h | h | ⟨h, h'⟩
    · left
      have : (s : ℝ) * bSpac ≤ (i : ℝ) * bSpac := mul_le_mul_of_nonneg_right (by exact_mod_cast Nat.lt_succ_iff.1 hsi) hb0.le
      linarith
    · omega
    · rcases Nat.eq_or_lt_of_le (Nat.lt_succ_iff.1 hsi) with e | e
      · right
        rw [← e]
        exact h
      · left
        have : ((s : ℝ) + 1) * bSpac ≤ (i : ℝ) * bSpac := mul_le_mul_of_nonneg_right (by exact_mod_cast e) hb0.le
        linarith
  have hlast : ∀ k : ℕ, ppb.length * m ≤ k → F k = 0 := by
    intro k hk
    refine hzero ppb.length _ ?_ (Or.inr (Or.inl le_rfl))
    rw [hb, ← mul_assoc]
    exact mul_le_mul_of_nonneg_right (by exact_mod_cast hk) hdt.le
  have hfirst : F 0 = 0 := hzero 0 _ (by simp) (Or.inl (by simp; linarith))
  have hflat : ∀ k, k + 1 < N → refinedCell ppb.length m dt t0 t1 k = false → F (k + 1) = F k := by
    intro k hk hcell
    by_cases hkm : ppb.length * m ≤ k
    · rw [hlast k hkm, hlast (k + 1) (by omega)]
    · have hkq : k = m * (k / m) + k % m := (Nat.div_add_mod k m).symm
      have hqm : k % m < m := Nat.mod_lt _ hm
      set s := k / m with hs
      set q := k % m with hq
      have hkr : (k : ℝ) * dt = (q : ℝ) * dt + (s : ℝ) * bSpac := by
        rw [hb, hkq]
        push_cast
        ring
      have hkr1 : ((k + 1 : ℕ) : ℝ) * dt = ((q : ℝ) + 1) * dt + (s : ℝ) * bSpac := by
        push_cast
        rw [add_mul, hkr]
        ring
      have hq0 : 0 ≤ (q : ℝ) * dt := by positivity
      have hq1 : ((q : ℝ) + 1) * dt ≤ bSpac := by
        rw [hb]
        exact mul_le_mul_of_nonneg_right (by exact_mod_cast hqm) hdt.le
      have hout : (q : ℝ) * dt < t0 ∨ t1 < (q : ℝ) * dt := by
        unfold refinedCell at hcell
        by_contra hn
        rw [not_or, not_lt, not_lt] at hn
        rw [← hq] at hcell
        have : (decide (k < ppb.length * m) && (decide (t0 ≤ (q : ℝ) * dt) && decide ((q : ℝ) * dt ≤ t1))) = true := by
          simp only [Bool.and_eq_true, decide_eq_true_eq]
          exact ⟨by omega, hn.1, hn.2⟩
        rw [this] at hcell
        cases hcell
      have z0 : F k = 0 := by
        refine hzero s _ (by rw [hkr]; linarith) ?_
        rw [hkr]
        rcases hout with h | h
        · left; linarith
        · right; right; constructor <;> linarith
      have z1 : F (k + 1) = 0 := by
        refine hzero s _ (by rw [hkr1]; linarith) ?_
        rw [hkr1]
        rcases hout with h | h
        · left; linarith
        · right; right; constructor <;> linarith
      rw [z0, z1]
  have hcharge := refined_charge ppb.length m r bSpac tEnd dt t0 t1 hdt hE hm hb ht1 hr F factBeam coast hflat
  rw [← hN, hlast (N - 1) (by omega), hfirst, sub_zero, mul_zero, add_zero] at hcharge
  set g := interpVal ((timeGrid ppb.length bSpac tEnd dt).zip ((List.range N).map F)) with hg
  obtain ⟨b, hrun⟩ := run_profile c bSpac (refinedAxis ppb.length bSpac tEnd dt r t0 t1)
    (((refinedAxis ppb.length bSpac tEnd dt r t0 t1).map g).map (fun v => factBeam * v + coast)) false hb0
    (C180_increasing_partial ppb.length m r bSpac tEnd dt t0 t1 hdt hE hm hb ht1 hr) (by simp) fuel hfuel
  refine ⟨_, b, _, mapM_val _ g _ (fun x _ => npInterp_val _ hne x), hrun, ?_⟩
  have e : ((fun v => factBeam * v + coast) ∘ g) = fun t => factBeam * g t + coast := rfl
  rw [List.map_map, zip_map_self, e, hcharge]
  have hst := steps_sum c tOffs bSpac tEnd dt factBeam coast σ ppb hc hdt hb0 hE hσ hp (fun i hi _ => by
    have hib : (0 : ℝ) ≤ (i : ℝ) * bSpac := by positivity
    have h3 : c * (t1 + (i : ℝ) * bSpac) ≤ c * ((ppb.length : ℝ) * bSpac) := mul_le_mul_of_nonneg_left (hslot i ppb.length hi) hc.le
    have h4 : 0 ≤ c * ((i : ℝ) * bSpac) := by positivity
    have h5 : 0 ≤ c * tEnd := by positivity
    have h6 : 0 ≤ c * (t0 + dt) := by positivity
    constructor <;> nlinarith)
  rw [← hN] at hst
  have e2 : c * ∑ k ∈ Finset.range (N - 1), (factBeam * F k + coast) * dt =
      ∑ k ∈ Finset.range (N - 1), c * lineDensity c ((k : ℝ) * dt) bSpac tOffs factBeam coast ppb σ * dt := by
    rw [Finset.mul_sum]
    refine Finset.sum_congr rfl fun k _ => ?_
    rw [hF]
    dsimp only
    rw [toolProfile_eq _ _ _ _ _ _ hp]
    unfold lineDensity
    ring
  rw [e2]
  exact hst

/-- Two slots of 4 steps; the steps from 1/2 to 1 are divided in two: the refined times and the line densities on them. -/
example : refinedAxis 2 (1 : ℚ) 0 (1 / 4) 2 (1 / 4) (1 / 2) = [0, 1 / 4, 3 / 8, 1 / 2, 5 / 8, 3 / 4, 1, 5 / 4, 11 / 8, 3 / 2, 13 / 8, 7 / 4, 2, 9 / 4] ∧
    refinedProfile 2 (1 : ℚ) 0 (1 / 4) 2 (1 / 4) (1 / 2) [0, 0, 4, 0, 0, 0, 2, 0, 0, 0] = .ok [0, 0, 2, 4, 2, 0, 0, 0, 1, 2, 1, 0, 0, 0] ∧
    profileCharge ((timeGrid 2 (1 : ℚ) 0 (1 / 4)).zip [0, 0, 4, 0, 0, 0, 2, 0, 0, 0]) = 3 / 2 := by
  decide +kernel

/-- The conditions of `C180_intensity_partial` are met by two slots with one bunch, `c = 1`, `σ = 1/100`. -/
example : ∃ out b N, refinedProfile 2 (1 : ℝ) 0 (1 / 4) 3 0 (3 / 4)
      ((timeGrid 2 (1 : ℝ) 0 (1 / 4)).map (fun t => toolProfile 1 t 1 (1 / 2) [1, 0] (1 / 100))) = .ok out ∧
    runLoop ⟨refinedAxis 2 (1 : ℝ) 0 (1 / 4) 3 0 (3 / 4), out.map (fun v => 2 * v + 0), 1, false⟩
      (fun b q => .ok (q + 1 * (b.lamCurr.getD 0) * (b.dtCurr.getD 0))) none
        ((refinedAxis 2 (1 : ℝ) 0 (1 / 4) 3 0 (3 / 4)).length + 1) BeamSt.init 0 = .ok (b, N) ∧
    |N - (2 * ([1, 0] : List ℝ).sum + 0 * (1 * (((timeGrid 2 (1 : ℝ) 0 (1 / 4)).length - 1 : ℕ) * (1 / 4))))| ≤
      |2| * ([1, 0] : List ℝ).sum * chargeErr (1 / 100) (1 * (1 / 4)) :=
  C180_intensity_partial 1 (1 / 2) 1 0 (1 / 4) 0 (3 / 4) 2 0 (1 / 100) 4 3 [1, 0] (by norm_num) (by norm_num) le_rfl (by norm_num) (by norm_num) le_rfl
    (by norm_num) (by norm_num) (by norm_num) (by simp) (by norm_num) (by norm_num) _ (Nat.lt_succ_self _)

end PyECLOUD
