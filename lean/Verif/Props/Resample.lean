import Verif.Lemmas.Resample
import Verif.Props.Yield

/-!
# C175: yield tables prepared from measurements reproduce them
-/

set_option linter.unusedSectionVars false

namespace PyECLOUD

variable {K : Type} [Field K] [LinearOrder K] [IsStrictOrderedRing K] [FloorRing K]

/-- The surface `t` shows the measurements `col0` at the energies `e` from `lo` to `hi`: `col`, `c`, `g` are its table and its line for the
quantity that was measured, `dE` and `range` the step and the range of the fit that were asked for. -/
structure Reproduces (e col0 : List K) (dE range lo hi : K) (t : SeyTable K) (col : List K) (c g : K) : Prop where
  /-- within the table the values differ from the measured curve by at most half a step times its steepest slope -/
  close : ∀ L, 0 ≤ L → SlopeAtMost L (e.zip col0) → ∀ x v, OnCurve (e.zip col0) x v → x ≤ t.eMax →
    ∃ w, tabValue t col c g x = .ok w ∧ |w - v| ≤ L * dE / 2
  /-- at a whole number of steps they are exact -/
  exact : ∀ (k : ℕ) x v, OnCurve (e.zip col0) x v → x = lo + (k : K) * dE → x ≤ t.eMax → tabValue t col c g x = .ok v
  /-- if all energies measured are a whole number of steps, they are exact everywhere -/
  all : (∀ x ∈ e, ∃ k : ℕ, x = lo + (k : K) * dE) → ∀ x v, OnCurve (e.zip col0) x v → tabValue t col c g x = .ok v
  /-- above the table the yield is on a line … -/
  above : ∀ x, t.eMax < x → tabValue t col c g x = .ok (c + g * x)
  /-- … which fits the upper part of the table best … -/
  best : ∀ g' c', misfit (((tabEnergies lo dE col.length).zip col).filter (fun p => decide (t.eMax - range < p.1))) g c ≤
    misfit (((tabEnergies lo dE col.length).zip col).filter (fun p => decide (t.eMax - range < p.1))) g' c'
  /-- … and continues the measurements if their upper part is straight. -/
  straight : t.eMax ≤ hi → ∀ g' c', (∀ x v, OnCurve (e.zip col0) x v → t.eMax - range < x → v = g' * x + c') → g = g' ∧ c = c'

theorem foldl_min_head : ∀ (l : List K) (a : K), (∀ x ∈ l, a ≤ x) → l.foldl min a = a
  | [], _, _ => rfl
  | x :: l, a, h => by
    rw [List.foldl_cons, min_eq_left (h x (by simp))]
    exact foldl_min_head l a fun y hy => h y (by simp [hy])

theorem foldl_max_last : ∀ (l : List K) (a : K), (a :: l).Pairwise (· < ·) → ∀ z, (a :: l).getLast? = some z → l.foldl max a = z
  | [], a, _, z, hz => by simpa using hz
  | x :: l, a, h, z, hz => by
    have hx : a < x := (List.pairwise_cons.1 h).1 x (by simp)
    rw [List.foldl_cons, max_eq_right hx.le]
    exact foldl_max_last l x (List.pairwise_cons.1 h).2 z (by simpa using hz)

omit [FloorRing K] in
theorem zip_rising (e c : List K) (h : e.Pairwise (· < ·)) : Rising (e.zip c) := by
  rw [Rising, List.pairwise_iff_getElem]
  intro i j hi hj hij
  simp only [List.getElem_zip]
  exact List.pairwise_iff_getElem.1 h i j _ _ hij

theorem tabEnergies_zip (lo dE : K) (n : ℕ) (f : K → K) :
    (tabEnergies lo dE n).zip ((tabEnergies lo dE n).map f) = (List.range n).map (fun k : ℕ => (lo + (k : K) * dE, f (lo + (k : K) * dE))) := by
  rw [tabEnergies, List.map_map, List.zip_map']
  rfl

theorem mapM_val {α β : Type} (f : α → Except PyErr β) (g : α → β) : ∀ l : List α, (∀ x ∈ l, f x = .ok (g x)) → l.mapM f = .ok (l.map g)
  | [], _ => rfl
  | a :: l, h => by
    rw [List.mapM_cons, h a (by simp)]
    show (l.mapM f >>= _) = _
    rw [mapM_val f g l fun x hx => h x (by simp [hx])]
    rfl

/-- the points of the fit -/
theorem grid_fit (lo dE range : K) (m : ℕ) (f : K → K) (hd : 0 < dE) (hrange : dE < range) :
    (lo + (m : K) * dE, f (lo + (m : K) * dE)) ∈ ((tabEnergies lo dE (m + 2)).zip ((tabEnergies lo dE (m + 2)).map f)).filter
      (fun p => decide (lo + ((m : K) + 1) * dE - range < p.1)) ∧
    (lo + ((m : K) + 1) * dE, f (lo + ((m : K) + 1) * dE)) ∈ ((tabEnergies lo dE (m + 2)).zip ((tabEnergies lo dE (m + 2)).map f)).filter
      (fun p => decide (lo + ((m : K) + 1) * dE - range < p.1)) ∧
    2 ≤ (((tabEnergies lo dE (m + 2)).zip ((tabEnergies lo dE (m + 2)).map f)).filter
      (fun p => decide (lo + ((m : K) + 1) * dE - range < p.1))).length := by
  rw [tabEnergies_zip]
  have h1 : lo + ((m : K) + 1) * dE - range < lo + (m : K) * dE := by linarith
  have h2 : lo + ((m : K) + 1) * dE - range < lo + ((m : K) + 1) * dE := by linarith
  refine ⟨?_, ?_, ?_⟩
  · rw [List.mem_filter]
    exact ⟨List.mem_map.2 ⟨m, by simp, rfl⟩, by simpa using h1⟩
  · rw [List.mem_filter]
    refine ⟨List.mem_map.2 ⟨m + 1, by simp, by push_cast; rfl⟩, by simpa using h2⟩
  · rw [List.range_succ, List.range_succ, List.map_append, List.map_append, List.filter_append, List.filter_append]
    simp only [List.map_cons, List.map_nil, Nat.cast_succ]
    rw [List.filter_cons_of_pos (by simpa using h1), List.filter_cons_of_pos (by simpa using h2)]
    simp

theorem extrapPars_top (lo dE range : K) (m : ℕ) (f : K → K) (hd : 0 < dE) :
    extrapPars ((tabEnergies lo dE (m + 2)).zip ((tabEnergies lo dE (m + 2)).map f)) range =
      if (((tabEnergies lo dE (m + 2)).zip ((tabEnergies lo dE (m + 2)).map f)).filter
        (fun p => decide (lo + ((m : K) + 1) * dE - range < p.1))).length < 2 then .error .valueError
      else .ok (polyfit1 (((tabEnergies lo dE (m + 2)).zip ((tabEnergies lo dE (m + 2)).map f)).filter
        (fun p => decide (lo + ((m : K) + 1) * dE - range < p.1)))) := by
  have hlen : ((tabEnergies lo dE (m + 2)).zip ((tabEnergies lo dE (m + 2)).map f)).length = m + 2 := by simp [tabEnergies]
  generalize hz : (tabEnergies lo dE (m + 2)).zip ((tabEnergies lo dE (m + 2)).map f) = z at hlen ⊢
  have hfst : z.map (·.1) = tabEnergies lo dE (m + 2) := by
    rw [← hz, tabEnergies_zip, List.map_map]
    rfl
  cases z with
  | nil => simp at hlen
  | cons p l =>
    have htop : (l.map (·.1)).foldl max p.1 = lo + ((m : K) + 1) * dE := by
      rw [List.map_cons] at hfst
      refine foldl_max_last _ _ ?_ _ ?_
      · rw [hfst, tabEnergies, List.pairwise_map]
        refine List.pairwise_lt_range.imp fun {a b} hab => ?_
        have : (a : K) < b := by exact_mod_cast hab
        nlinarith
      · rw [hfst, tabEnergies, List.getLast?_map, List.range_succ, List.getLast?_append]
        simp
    unfold extrapPars
    dsimp only
    rw [htop]

theorem extrapPars_grid (lo dE range : K) (m : ℕ) (f : K → K) (hd : 0 < dE) (hrange : dE < range) :
    extrapPars ((tabEnergies lo dE (m + 2)).zip ((tabEnergies lo dE (m + 2)).map f)) range =
      .ok (polyfit1 (((tabEnergies lo dE (m + 2)).zip ((tabEnergies lo dE (m + 2)).map f)).filter
        (fun p => decide (lo + ((m : K) + 1) * dE - range < p.1)))) := by
  rw [extrapPars_top lo dE range m f hd, if_neg (not_lt.2 (grid_fit lo dE range m f hd hrange).2.2)]

theorem extrapPars_narrow (lo dE range : K) (m : ℕ) (f : K → K) (hd : 0 < dE) (hrange : range ≤ dE) :
    extrapPars ((tabEnergies lo dE (m + 2)).zip ((tabEnergies lo dE (m + 2)).map f)) range = .error .valueError := by
  rw [extrapPars_top lo dE range m f hd, if_pos]
  rw [tabEnergies_zip, List.range_succ, List.map_append, List.filter_append]
  have h : ((List.range (m + 1)).map (fun k : ℕ => (lo + (k : K) * dE, f (lo + (k : K) * dE)))).filter
      (fun p => decide (lo + ((m : K) + 1) * dE - range < p.1)) = [] := by
    rw [List.filter_eq_nil_iff]
    intro p hp
    obtain ⟨k, hk, rfl⟩ := List.mem_map.1 hp
    have : (k : K) ≤ m := by
      have := List.mem_range.1 hk
      exact_mod_cast (by omega : k ≤ m)
    simp only [decide_eq_true_eq, not_lt]
    nlinarith
  rw [h, List.nil_append]
  refine lt_of_le_of_lt (List.length_filter_le _ _) ?_
  simp

set_option maxHeartbeats 1000000 in
/-- the prepared column -/
theorem reproduces_of (e col0 : List K) (dE range lo hi : K) (hsort : e.Pairwise (· < ·)) (hlen : col0.length = e.length) (hd : 0 < dE)
    (hr : round3 dE = dE) (hrange : dE < range) (hlo : e.head? = some lo) (hhi : e.getLast? = some hi) (m : ℕ)
    (htop1 : hi - dE / 2 ≤ lo + ((m : K) + 1) * dE) (htop2 : lo + ((m : K) + 1) * dE < hi + dE / 2) (tr el : List K) (cT gT cE gE c g : K)
    (scale shift : Bool) (t : SeyTable K) (ht : seyTableOf (tabEnergies lo dE (m + 2)) tr el cT gT cE gE scale shift = .ok t)
    (hgc : (g, c) = polyfit1 (((tabEnergies lo dE (m + 2)).zip ((tabEnergies lo dE (m + 2)).map (interpVal (e.zip col0)))).filter
        (fun p => decide (lo + ((m : K) + 1) * dE - range < p.1)))) :
    Reproduces e col0 dE range lo hi t ((tabEnergies lo dE (m + 2)).map (interpVal (e.zip col0))) c g := by
  obtain ⟨es, rfl⟩ : ∃ es, e = lo :: es := by
    cases e with
    | nil => simp at hlo
    | cons a es => simp at hlo; exact ⟨es, by rw [hlo]⟩
  obtain ⟨c0, cs, rfl⟩ : ∃ c0 cs, col0 = c0 :: cs := by
    cases col0 with
    | nil => simp at hlen
    | cons a es => exact ⟨a, es, rfl⟩
  have hris := zip_rising (lo :: es) (c0 :: cs) hsort
  set s := (lo :: es).zip (c0 :: cs) with hs
  have hs0 : s = (lo, c0) :: es.zip cs := by rw [hs, List.zip_cons_cons]
  have hn : 2 ≤ m + 2 := by omega
  have hcollen : ((tabEnergies lo dE (m + 2)).map (interpVal s)).length = m + 2 := by simp [tabEnergies]
  obtain ⟨k1, k2, -, k4⟩ := C29_interpolation_partial lo dE (m + 2) hn hd hr tr el cT gT cE gE scale shift t ht _ hcollen c g
  have hE : t.eMax = lo + ((m : K) + 1) * dE := by
    rw [seyTableOf_grid lo dE (m + 2) hn hd hr] at ht
    cases ht
    show lo + (((m + 2 : ℕ) : K) - 1) * dE = _
    push_cast
    ring
  have hcol : ∀ k : ℕ, k < m + 2 → ((tabEnergies lo dE (m + 2)).map (interpVal s))[k]? = some (interpVal s (lo + (k : K) * dE)) := fun k hk => by
    rw [tabEnergies, List.map_map, List.getElem?_map, List.getElem?_range hk]
    rfl
  have hcurve_lo : ∀ x v, OnCurve s x v → lo ≤ x := fun x v hc => by
    rw [hs0] at hc hris
    exact (npInterpFrom_curve _ _ hris x v hc).1
  -- the cell of an energy
  have hcell : ∀ x, lo ≤ x → x ≤ t.eMax → ∃ (k : ℕ) (lam : K), k + 1 < m + 2 ∧ 0 ≤ lam ∧ lam ≤ 1 ∧ x = lo + ((k : K) + lam) * dE ∧
      tabValue t ((tabEnergies lo dE (m + 2)).map (interpVal s)) c g x =
        .ok ((1 - lam) * interpVal s (lo + (k : K) * dE) + lam * interpVal s (lo + ((k : K) + 1) * dE)) := by
    intro x h1 h2
    have hq0 : 0 ≤ (x - lo) / dE := div_nonneg (by linarith) hd.le
    have hqn : (x - lo) / dE ≤ (m : K) + 1 := by rw [div_le_iff₀ hd]; rw [hE] at h2; linarith
    have hx : x = lo + (x - lo) / dE * dE := by field_simp; ring
    obtain ⟨k, hk, hk1, hk2⟩ : ∃ k : ℕ, k + 1 < m + 2 ∧ (k : K) ≤ (x - lo) / dE ∧ (x - lo) / dE ≤ (k : K) + 1 := by
      by_cases hlt : (x - lo) / dE < (m : K) + 1
      · refine ⟨⌊(x - lo) / dE⌋₊, ?_, Nat.floor_le hq0, (Nat.lt_floor_add_one _).le⟩
        have := lt_of_le_of_lt (Nat.floor_le hq0) hlt
        have : ⌊(x - lo) / dE⌋₊ < m + 1 := by exact_mod_cast this
        omega
      · exact ⟨m, by omega, by linarith [not_lt.1 hlt], hqn⟩
    refine ⟨k, (x - lo) / dE - k, hk, by linarith, by linarith, ?_, ?_⟩
    · have : (k : K) + ((x - lo) / dE - k) = (x - lo) / dE := by ring
      rw [this]
      exact hx
    · have := k1 k _ _ ((x - lo) / dE - k) (hcol k (by omega)) (hcol (k + 1) hk) (by linarith) (by linarith)
      have e : (1 - ((x - lo) / dE - k)) * (lo + (k : K) * dE) + ((x - lo) / dE - k) * (lo + ((k : K) + 1) * dE) = x := by
        have : (1 - ((x - lo) / dE - k)) * (lo + (k : K) * dE) + ((x - lo) / dE - k) * (lo + ((k : K) + 1) * dE) = lo + (x - lo) / dE * dE := by ring
        rw [this]
        exact hx.symm
      rw [e] at this
      push_cast at this
      exact this
  have hmisE : ((tabEnergies lo dE ((tabEnergies lo dE (m + 2)).map (interpVal s)).length).zip ((tabEnergies lo dE (m + 2)).map (interpVal s))).filter
      (fun p => decide (t.eMax - range < p.1)) = ((tabEnergies lo dE (m + 2)).zip ((tabEnergies lo dE (m + 2)).map (interpVal s))).filter
      (fun p => decide (lo + ((m : K) + 1) * dE - range < p.1)) := by rw [hcollen, hE]
  obtain ⟨f1, f2, -⟩ := grid_fit lo dE range m (interpVal s) hd hrange
  have hf12 : (lo + (m : K) * dE, interpVal s (lo + (m : K) * dE)).1 ≠ (lo + ((m : K) + 1) * dE, interpVal s (lo + ((m : K) + 1) * dE)).1 := by
    show lo + (m : K) * dE ≠ lo + ((m : K) + 1) * dE
    intro h
    linarith
  have hexact : ∀ (k : ℕ) x v, OnCurve s x v → x = lo + (k : K) * dE → x ≤ t.eMax →
      tabValue t ((tabEnergies lo dE (m + 2)).map (interpVal s)) c g x = .ok v := fun k x v hc hx hxE => by
    have hk : k < m + 2 := by
      rw [hx, hE] at hxE
      have : (k : K) ≤ (m : K) + 1 := by
        by_contra hlt
        nlinarith [not_le.1 hlt]
      have : k ≤ m + 1 := by exact_mod_cast this
      omega
    have := k2 k _ (hcol k hk)
    rw [← hx, interpVal_curve s hris x v hc] at this
    exact this
  refine ⟨?_, hexact, ?_, ?_, ?_, ?_⟩
  · intro L hL hsl x v hc hxE
    obtain ⟨k, lam, hk, h0, h1, hx, hw⟩ := hcell x (hcurve_lo x v hc) hxE
    refine ⟨_, hw, ?_⟩
    rw [← interpVal_curve s hris x v hc]
    have hk0 : (0 : K) ≤ (k : K) * dE := by positivity
    have hld : 0 ≤ lam * dE := mul_nonneg h0 hd.le
    have hld' : 0 ≤ (1 - lam) * dE := mul_nonneg (sub_nonneg.2 h1) hd.le
    change SlopeAtMost L s at hsl
    rw [hs0] at hsl hris
    have s1 := interpVal_slope L hL _ _ hris hsl (lo + (k : K) * dE) x (by show lo ≤ _; linarith) (by rw [hx]; nlinarith)
    have s2 := interpVal_slope L hL _ _ hris hsl x (lo + ((k : K) + 1) * dE) (by show lo ≤ _; rw [hx]; nlinarith) (by rw [hx]; nlinarith)
    rw [← hs0] at s1 s2
    have e1 : x - (lo + (k : K) * dE) = lam * dE := by rw [hx]; ring
    have e2 : lo + ((k : K) + 1) * dE - x = (1 - lam) * dE := by rw [hx]; ring
    rw [e1, abs_sub_comm] at s1
    rw [e2] at s2
    have e3 : (1 - lam) * interpVal s (lo + (k : K) * dE) + lam * interpVal s (lo + ((k : K) + 1) * dE) - interpVal s x =
        (1 - lam) * (interpVal s (lo + (k : K) * dE) - interpVal s x) + lam * (interpVal s (lo + ((k : K) + 1) * dE) - interpVal s x) := by ring
    rw [e3]
    refine (abs_add_le _ _).trans ?_
    rw [abs_mul, abs_mul, abs_of_nonneg h0, abs_of_nonneg (sub_nonneg.2 h1)]
    have m1 := mul_le_mul_of_nonneg_left s1 (sub_nonneg.2 h1)
    have m2 := mul_le_mul_of_nonneg_left s2 h0
    have m3 : 0 ≤ L * dE * (1 - 2 * lam) ^ 2 := by positivity
    nlinarith
  · intro hgrid x v hc
    have hcs := hc
    obtain ⟨j, a, b, lam, ha, hb, h0, h1, hx, hv⟩ := hc
    have hae : a.1 ∈ lo :: es := by
      have := List.mem_of_getElem? ha
      exact (List.of_mem_zip this).1
    have hbe : b.1 ∈ lo :: es := by
      have := List.mem_of_getElem? hb
      exact (List.of_mem_zip this).1
    obtain ⟨i1, hi1⟩ := hgrid _ hae
    obtain ⟨i2, hi2⟩ := hgrid _ hbe
    have hab : a.1 < b.1 := rising_get hris ha hb (by omega)
    have hble : b.1 ≤ hi := by
      obtain ⟨i, hib, hbi⟩ := List.getElem_of_mem hbe
      rw [List.getLast?_eq_getElem?] at hhi
      obtain ⟨hl, hhl⟩ := List.getElem?_eq_some_iff.1 hhi
      rw [← hbi, ← hhl]
      rcases Nat.lt_or_ge i ((lo :: es).length - 1) with h | h
      · exact (List.pairwise_iff_getElem.1 hsort i _ hib hl h).le
      · have : i = (lo :: es).length - 1 := by omega
        exact le_of_eq (by congr 1)
    obtain ⟨ih, hih⟩ := hgrid hi (List.mem_of_getLast? hhi)
    have hihm : ih = m + 1 := by
      have u1 : (ih : K) * dE < ((m : K) + 2) * dE := by rw [hih] at htop1; nlinarith
      have u2 : ((m : K)) * dE < (ih : K) * dE := by rw [hih] at htop2; nlinarith
      have u1' : (ih : K) < ((m + 2 : ℕ) : K) := by push_cast; exact lt_of_mul_lt_mul_right u1 hd.le
      have u2' : (m : K) < (ih : K) := lt_of_mul_lt_mul_right u2 hd.le
      have v1 : ih < m + 2 := by exact_mod_cast u1'
      have v2 : m < ih := by exact_mod_cast u2'
      omega
    have hEhi : t.eMax = hi := by
      rw [hE, hih, hihm]
      push_cast
      ring
    have hxb : x ≤ b.1 := by rw [hx]; nlinarith
    rcases eq_or_lt_of_le hxb with hxb' | hxb'
    · exact hexact i2 x v hcs (by rw [hxb', hi2]) (by rw [hEhi]; exact hxb.trans hble)
    · -- the cell of x lies between the two samples
      have hax : a.1 ≤ x := by rw [hx]; nlinarith
      have hq : (i1 : K) ≤ (x - lo) / dE := by rw [le_div_iff₀ hd]; rw [hi1] at hax; linarith
      have hq2 : (x - lo) / dE < (i2 : K) := by rw [div_lt_iff₀ hd]; rw [hi2] at hxb'; linarith
      have hq0 : 0 ≤ (x - lo) / dE := le_trans (Nat.cast_nonneg _) hq
      set k := ⌊(x - lo) / dE⌋₊ with hk
      have hik : i1 ≤ k := Nat.le_floor hq
      have hki : k + 1 ≤ i2 := by
        have : (k : K) < i2 := lt_of_le_of_lt (Nat.floor_le hq0) hq2
        have : k < i2 := by exact_mod_cast this
        omega
      have hkm : k + 1 < m + 2 := by
        have : i2 ≤ m + 1 := by
          rw [hi2, hih, hihm] at hble
          have h3 : (i2 : K) ≤ ((m + 1 : ℕ) : K) := by
            by_contra hlt
            nlinarith [not_le.1 hlt]
          exact_mod_cast h3
        omega
      have hl0 : 0 ≤ (x - lo) / dE - k := sub_nonneg.2 (Nat.floor_le hq0)
      have hl1 : (x - lo) / dE - k ≤ 1 := by linarith [(Nat.lt_floor_add_one ((x - lo) / dE)).le]
      have hdab : b.1 - a.1 ≠ 0 := (sub_pos.2 hab).ne'
      have onseg : ∀ y, a.1 ≤ y → y ≤ b.1 → interpVal s y = a.2 + (y - a.1) / (b.1 - a.1) * (b.2 - a.2) := fun y hy1 hy2 => by
        refine interpVal_curve s hris y _ ⟨j, a, b, (y - a.1) / (b.1 - a.1), ha, hb, ?_, ?_, ?_, ?_⟩
        · exact div_nonneg (by linarith) (by linarith)
        · rw [div_le_one (by linarith)]; linarith
        · field_simp; ring
        · ring
      have g1 : a.1 ≤ lo + (k : K) * dE := by
        rw [hi1]
        have : (i1 : K) ≤ k := by exact_mod_cast hik
        nlinarith
      have g2 : lo + ((k : K) + 1) * dE ≤ b.1 := by
        rw [hi2]
        have : ((k : K) + 1) ≤ i2 := by exact_mod_cast hki
        nlinarith
      have := k1 k _ _ ((x - lo) / dE - k) (hcol k (by omega)) (hcol (k + 1) hkm) hl0 hl1
      have ex : (1 - ((x - lo) / dE - k)) * (lo + (k : K) * dE) + ((x - lo) / dE - k) * (lo + ((k : K) + 1) * dE) = x := by
        field_simp
        ring
      rw [ex] at this
      rw [this]
      push_cast
      rw [onseg _ g1 (by linarith), onseg _ (by linarith) g2]
      have hv' : v = a.2 + (x - a.1) / (b.1 - a.1) * (b.2 - a.2) := by
        rw [← interpVal_curve s hris x v hcs]
        exact onseg x hax hxb
      rw [hv']
      congr 1
      field_simp
      ring
  · intro x hx
    refine k4 x ?_
    rw [hE] at hx
    push_cast
    linarith
  · intro g' c'
    rw [hmisE]
    have := polyfit1_split _ _ _ f1 f2 hf12 g' c'
    rw [← hgc] at this
    rw [this]
    have hp := sum_nonneg' (((tabEnergies lo dE (m + 2)).zip ((tabEnergies lo dE (m + 2)).map (interpVal s))).filter
      (fun p => decide (lo + ((m : K) + 1) * dE - range < p.1))) (fun p => ((g - g') * p.1 + (c - c')) ^ 2) fun p _ => sq_nonneg _
    linarith
  · intro htop g' c' hline
    have hpts : ∀ k : ℕ, k < m + 2 → lo + ((m : K) + 1) * dE - range < lo + (k : K) * dE →
        interpVal s (lo + (k : K) * dE) = g' * (lo + (k : K) * dE) + c' := fun k hk hlow => by
      have hes : es ≠ [] := by
        rintro rfl
        simp at hhi
        have : (0 : K) ≤ m * dE := by positivity
        linarith
      have hcs : es.zip cs ≠ [] := by
        intro h
        have := congrArg List.length h
        simp only [List.length_zip, List.length_nil] at this
        have h1 : es.length ≠ 0 := fun h => hes (List.length_eq_zero_iff.1 h)
        simp only [List.length_cons, Nat.add_right_cancel_iff] at hlen
        omega
      obtain ⟨z, hz, hz1⟩ : ∃ z, s.getLast? = some z ∧ z.1 = hi := by
        have hl : s.length = (lo :: es).length := by rw [hs, List.length_zip, hlen, min_self]
        have hsl : s ≠ [] := by rw [hs0]; simp
        refine ⟨s.getLast hsl, List.getLast?_eq_some_getLast hsl, ?_⟩
        rw [List.getLast?_eq_getElem?] at hhi
        obtain ⟨h1, h2⟩ := List.getElem?_eq_some_iff.1 hhi
        rw [List.getLast_eq_getElem]
        simp only [hs, List.getElem_zip, ← h2]
        congr 1
        rw [← hs, hl]
      have hk' : (k : K) ≤ (m : K) + 1 := by
        have : k ≤ m + 1 := by omega
        exact_mod_cast this
      rw [hs0] at hz
      have hlok : lo ≤ lo + (k : K) * dE := by
        have : (0 : K) ≤ k * dE := by positivity
        linarith
      obtain ⟨v, hv⟩ := curve_exists (lo + (k : K) * dE) _ _ (hs0 ▸ hris) hcs hlok z hz (by rw [hz1]; rw [hE] at htop; nlinarith)
      rw [← hs0] at hv
      rw [interpVal_curve s hris _ _ hv]
      exact hline _ v hv (by rw [hE]; exact hlow)
    have hz : misfit (((tabEnergies lo dE (m + 2)).zip ((tabEnergies lo dE (m + 2)).map (interpVal s))).filter
        (fun p => decide (lo + ((m : K) + 1) * dE - range < p.1))) g' c' = 0 := by
      rw [misfit]
      refine List.sum_eq_zero fun y hy => ?_
      obtain ⟨p, hp, rfl⟩ := List.mem_map.1 hy
      rw [List.mem_filter, tabEnergies_zip] at hp
      obtain ⟨hp1, hp2⟩ := hp
      obtain ⟨k, hk, rfl⟩ := List.mem_map.1 hp1
      have := hpts k (by simpa using hk) (by simpa using hp2)
      simp only at this ⊢
      rw [this]
      ring
    have hsp := polyfit1_split _ _ _ f1 f2 hf12 g' c'
    rw [← hgc, hz] at hsp
    have hp := sum_nonneg' (((tabEnergies lo dE (m + 2)).zip ((tabEnergies lo dE (m + 2)).map (interpVal s))).filter
      (fun p => decide (lo + ((m : K) + 1) * dE - range < p.1))) (fun p => ((g - g') * p.1 + (c - c')) ^ 2) fun p _ => sq_nonneg _
    have hm := sum_nonneg' (((tabEnergies lo dE (m + 2)).zip ((tabEnergies lo dE (m + 2)).map (interpVal s))).filter
      (fun p => decide (lo + ((m : K) + 1) * dE - range < p.1))) (fun p => (p.2 - (g * p.1 + c)) ^ 2) fun p _ => sq_nonneg _
    rw [misfit] at hsp
    have h0 := sum_zero' _ (fun p : K × K => ((g - g') * p.1 + (c - c')) ^ 2) (fun p _ => sq_nonneg _) (by linarith)
    have z1 := pow_eq_zero_iff (two_ne_zero) |>.1 (h0 _ f1)
    have z2 := pow_eq_zero_iff (two_ne_zero) |>.1 (h0 _ f2)
    simp only at z1 z2
    have hg : (g - g') * dE = 0 := by linear_combination z2 - z1
    have hgg : g = g' := by
      rcases mul_eq_zero.1 hg with h | h
      · linarith
      · exact absurd h hd.ne'
    subst hgg
    exact ⟨rfl, by linarith⟩

/-- the number of energies -/
theorem grid_count (dE lo hi : K) (hd : 0 < dE) (hwide : dE / 2 < hi - lo) : ∃ m : ℕ, ⌈(hi + dE * (1 / 2) - lo) / dE⌉.toNat = m + 2 ∧
    hi - dE / 2 ≤ lo + ((m : K) + 1) * dE ∧ lo + ((m : K) + 1) * dE < hi + dE / 2 := by
  have h1 : (1 : K) < (hi + dE * (1 / 2) - lo) / dE := by rw [lt_div_iff₀ hd]; linarith
  have h2 : (1 : ℤ) < ⌈(hi + dE * (1 / 2) - lo) / dE⌉ := by
    rw [Int.lt_ceil]
    exact_mod_cast h1
  obtain ⟨m, hm⟩ : ∃ m : ℕ, ⌈(hi + dE * (1 / 2) - lo) / dE⌉ = (m : ℤ) + 2 := ⟨(⌈(hi + dE * (1 / 2) - lo) / dE⌉ - 2).toNat, by omega⟩
  have u1 := Int.le_ceil ((hi + dE * (1 / 2) - lo) / dE)
  have u2 := Int.ceil_lt_add_one ((hi + dE * (1 / 2) - lo) / dE)
  rw [hm] at u1 u2
  push_cast at u1 u2
  rw [div_le_iff₀ hd] at u1
  rw [← sub_lt_iff_lt_add, lt_div_iff₀ hd] at u2
  exact ⟨m, by omega, by linarith, by linarith⟩

/-- **C175.** From measurements in the order of their energies `resample_sey_data` makes a table that the surface model accepts. It starts at
the first energy and ends within half a step of the last one, and it shows both measured quantities. -/
theorem C175_tables (e tr el : List K) (dE range lo hi : K) (hsort : e.Pairwise (· < ·)) (htr : tr.length = e.length)
    (hel : el.length = e.length) (hd : 0 < dE) (hr : round3 dE = dE) (hrange : dE < range) (hlo : e.head? = some lo)
    (hhi : e.getLast? = some hi) (hwide : dE / 2 < hi - lo) (scale shift : Bool) :
    ∃ d t, resampleSey e tr el dE range = .ok d ∧ d.surface scale shift = .ok t ∧ t.eMin = lo ∧ hi - dE / 2 ≤ t.eMax ∧ t.eMax < hi + dE / 2 ∧
      Reproduces e tr dE range lo hi t t.true' t.constTrue t.gradTrue ∧ Reproduces e el dE range lo hi t t.elast t.constElast t.gradElast := by
  obtain ⟨m, hm, hm1, hm2⟩ := grid_count dE lo hi hd hwide
  have hne : e ≠ [] := by
    rintro rfl
    simp at hlo
  have hval : ∀ c : List K, c.length = e.length → (tabEnergies lo dE (m + 2)).mapM (npInterp (e.zip c)) =
      .ok ((tabEnergies lo dE (m + 2)).map (interpVal (e.zip c))) := fun c hc =>
    mapM_val _ _ _ fun x _ => npInterp_val _ (fun h => hne (by
      have := congrArg List.length h
      rw [List.length_zip, hc, min_self] at this
      exact List.length_eq_zero_iff.1 this)) x
  set ts := (tabEnergies lo dE (m + 2)).map (interpVal (e.zip tr)) with hts
  set ls := (tabEnergies lo dE (m + 2)).map (interpVal (e.zip el)) with hls
  set pt := polyfit1 (((tabEnergies lo dE (m + 2)).zip ts).filter (fun p => decide (lo + ((m : K) + 1) * dE - range < p.1))) with hpt
  set pe := polyfit1 (((tabEnergies lo dE (m + 2)).zip ls).filter (fun p => decide (lo + ((m : K) + 1) * dE - range < p.1))) with hpe
  have hsurf : seyTableOf (tabEnergies lo dE (m + 2)) ts ls pt.2 pt.1 pe.2 pe.1 scale shift =
      .ok ⟨lo, lo + (((m + 2 : ℕ) : K) - 1) * dE, dE, ts, ls, pt.2, pt.1, pe.2, pe.1, scale, shift⟩ :=
    seyTableOf_grid lo dE (m + 2) (by omega) hd hr ts ls pt.2 pt.1 pe.2 pe.1 scale shift
  have htop : lo + (((m + 2 : ℕ) : K) - 1) * dE = lo + ((m : K) + 1) * dE := by
    push_cast
    ring
  refine ⟨⟨tabEnergies lo dE (m + 2), ts, ls, pt.1, pt.2, pe.1, pe.2⟩, _, ?_, hsurf, rfl, ?_, ?_, ?_, ?_⟩
  · cases e with
    | nil => exact absurd rfl hne
    | cons e0 es =>
      have he0 : e0 = lo := by simpa using hlo
      subst he0
      have hmin : es.foldl min e0 = e0 := foldl_min_head es e0 fun x hx => ((List.pairwise_cons.1 hsort).1 x hx).le
      have hmax : es.foldl max e0 = hi := foldl_max_last es e0 hsort hi hhi
      have hgrid : npArange e0 (hi + dE * (1 / 2)) dE = tabEnergies e0 dE (m + 2) := by rw [npArange, hm]; rfl
      unfold resampleSey
      simp only [hd.ne', if_false, hmin, hmax, hgrid, htr, hel, ne_eq, not_true_eq_false]
      rw [hval tr htr]
      show (extrapPars _ range >>= _) = _
      rw [← hts, hts, extrapPars_grid e0 dE range m _ hd hrange]
      show ((tabEnergies e0 dE (m + 2)).mapM (npInterp ((e0 :: es).zip el)) >>= _) = _
      rw [hval el hel]
      show (extrapPars _ range >>= _) = _
      rw [extrapPars_grid e0 dE range m _ hd hrange]
      rfl
  · rw [htop]; exact hm1
  · rw [htop]; exact hm2
  · exact reproduces_of e tr dE range lo hi hsort htr hd hr hrange hlo hhi m hm1 hm2 ts ls pt.2 pt.1 pe.2 pe.1 pt.2 pt.1 scale shift _ hsurf rfl
  · exact reproduces_of e el dE range lo hi hsort hel hd hr hrange hlo hhi m hm1 hm2 ts ls pt.2 pt.1 pe.2 pe.1 pe.2 pe.1 scale shift _ hsurf rfl

/-- Measurements at 0, 3/2 and 4 eV, a step of 1 eV: the table, and the line through its last two points. -/
example : ∃ d, resampleSey [(0 : ℚ), 3 / 2, 4] [1, 4, 9] [0, 0, 0] 1 (3 / 2) = .ok d ∧
    (d.energies = [0, 1, 2, 3, 4] ∧ d.true' = [1, 3, 5, 7, 9] ∧ d.gradTrue = 2 ∧ d.constTrue = 1 ∧
      [(0 : ℚ), 3 / 2, 4].Pairwise (· < ·) ∧ round3 (1 : ℚ) = 1 ∧ (1 : ℚ) < 3 / 2 ∧ [(0 : ℚ), 3 / 2, 4].head? = some 0 ∧
      [(0 : ℚ), 3 / 2, 4].getLast? = some 4 ∧ (1 : ℚ) / 2 < 4 - 0) :=
  exists_ok (by decide +kernel)

/-- **C175, refusals.** A range that does not exceed the step leaves one point for the fit and is refused. -/
theorem C175_narrow (e tr el : List K) (dE range lo hi : K) (hsort : e.Pairwise (· < ·)) (htr : tr.length = e.length) (hd : 0 < dE)
    (hrange : range ≤ dE) (hlo : e.head? = some lo) (hhi : e.getLast? = some hi) (hwide : dE / 2 < hi - lo) :
    resampleSey e tr el dE range = .error .valueError := by
  obtain ⟨m, hm, -, -⟩ := grid_count dE lo hi hd hwide
  cases e with
  | nil => simp at hlo
  | cons e0 es =>
    have he0 : e0 = lo := by simpa using hlo
    subst he0
    have hmin : es.foldl min e0 = e0 := foldl_min_head es e0 fun x hx => ((List.pairwise_cons.1 hsort).1 x hx).le
    have hmax : es.foldl max e0 = hi := foldl_max_last es e0 hsort hi hhi
    have hgrid : npArange e0 (hi + dE * (1 / 2)) dE = tabEnergies e0 dE (m + 2) := by rw [npArange, hm]; rfl
    have hval : (tabEnergies e0 dE (m + 2)).mapM (npInterp ((e0 :: es).zip tr)) = .ok ((tabEnergies e0 dE (m + 2)).map (interpVal ((e0 :: es).zip tr))) :=
      mapM_val _ _ _ fun x _ => npInterp_val _ (fun h => by
        have := congrArg List.length h
        rw [List.length_zip, htr, min_self] at this
        simp at this) x
    unfold resampleSey
    simp only [hd.ne', if_false, hmin, hmax, hgrid, htr, ne_eq, not_true_eq_false]
    rw [hval]
    show (extrapPars _ range >>= _) = _
    rw [extrapPars_narrow e0 dE range m _ hd hrange]
    rfl

example : resampleSey [(0 : ℚ), 3 / 2, 4] [1, 4, 9] [0, 0, 0] 1 1 = .error .valueError ∧ (1 : ℚ) ≤ 1 := by decide +kernel

end PyECLOUD
