import Verif.Model.ErrF
import Mathlib.Tactic.Linarith
import Mathlib.Tactic.Positivity
import Mathlib.Tactic.NormNum

/-! Helper lemmas about `ERRF`. -/

namespace PyECLOUD

open Real

theorem rd_wr (a : Arr33) (n : ℕ) (v : ℝ) (h0 : 0 < n) (h1 : n ≤ 33) :
    ∃ a', wr a n v = .ok a' ∧ rd a' n = .ok v ∧ ∀ m, m ≠ n → a' m = a m := by
  have hc : ¬ (n = 0 ∨ 33 < n) := by omega
  refine ⟨fun m => if m = n then some v else a m, ?_, ?_, ?_⟩
  · simp [wr, hc]
  · simp [rd, hc]
  · intro m hm
    simp [hm]

theorem rd_congr (a b : Arr33) (n : ℕ) (h : a n = b n) : rd a n = rd b n := by
  simp [rd, h]

theorem dv_ok (a b : ℝ) (h : b ≠ 0) : dv a b = .ok (a / b) := by
  simp [dv, h]

/-- Loop 10 succeeds and leaves readable values in all elements up to the start. With `yh = 0` and a vanishing
imaginary start the imaginary parts stay zero. -/
theorem errLoop10_ok (xh yh : ℝ) (hx : 0 < xh) : ∀ (n : ℕ) (ax ay : Arr33), n + 1 ≤ 33 →
    (∃ u v, rd ax (n + 1) = .ok u ∧ 0 ≤ u ∧ rd ay (n + 1) = .ok v ∧ (yh = 0 → v = 0)) →
    ∃ bx by', errLoop10 xh yh n ax ay = .ok (bx, by') ∧
      (∀ m, 0 < m → m ≤ n → ∃ u v, rd bx m = .ok u ∧ rd by' m = .ok v ∧ (yh = 0 → v = 0)) ∧
      ∀ m, n < m → bx m = ax m ∧ by' m = ay m
  | 0, ax, ay, _, _ => ⟨ax, ay, rfl, fun m h0 h1 => by omega, fun m _ => ⟨rfl, rfl⟩⟩
  | n + 1, ax, ay, hn, ⟨u, v, hu, hu0, hv, hv0⟩ => by
    have htx : 0 < xh + (n + 1 : ℝ) * u := by positivity
    set tx := xh + (n + 1 : ℝ) * u with htxd
    set ty := yh - (n + 1 : ℝ) * v with htyd
    have htn : tx * tx + ty * ty ≠ 0 := by
      have := mul_self_nonneg ty
      have := mul_pos htx htx
      linarith
    have hty : yh = 0 → ty = 0 := fun h => by rw [htyd, h, hv0 h]; ring
    obtain ⟨ax', hax, rax, oax⟩ := rd_wr ax (n + 1) (0.5 * tx / (tx * tx + ty * ty)) (by omega) (by omega)
    obtain ⟨ay', hay, ray, oay⟩ := rd_wr ay (n + 1) (0.5 * ty / (tx * tx + ty * ty)) (by omega) (by omega)
    have hpos : 0 ≤ 0.5 * tx / (tx * tx + ty * ty) := by
      have := mul_self_nonneg ty
      positivity
    obtain ⟨bx, by', hb, hin, hout⟩ := errLoop10_ok xh yh hx n ax' ay' (by omega)
      ⟨_, _, rax, hpos, ray, fun h => by rw [hty h]; simp⟩
    refine ⟨bx, by', ?_, ?_, ?_⟩
    · simp only [errLoop10, hu, hv]
      show (do
        let vx ← dv (0.5 * tx) (tx * tx + ty * ty)
        let vy ← dv (0.5 * ty) (tx * tx + ty * ty)
        let ax' ← wr ax (n + 1) vx
        let ay' ← wr ay (n + 1) vy
        errLoop10 xh yh n ax' ay') = _
      rw [dv_ok _ _ htn, dv_ok _ _ htn]
      show (do
        let ax' ← wr ax (n + 1) (0.5 * tx / (tx * tx + ty * ty))
        let ay' ← wr ay (n + 1) (0.5 * ty / (tx * tx + ty * ty))
        errLoop10 xh yh n ax' ay') = _
      rw [hax, hay]
      exact hb
    · intro m h0 h1
      by_cases hm : m ≤ n
      · exact hin m h0 hm
      · have e : m = n + 1 := by omega
        subst e
        refine ⟨0.5 * tx / (tx * tx + ty * ty), 0.5 * ty / (tx * tx + ty * ty), ?_, ?_, ?_⟩
        · rw [rd_congr bx ax' _ (hout _ (by omega)).1, rax]
        · rw [rd_congr by' ay' _ (hout _ (by omega)).2, ray]
        · intro h
          rw [hty h]; simp
    · intro m hm
      exact ⟨by rw [(hout m (by omega)).1, oax m (by omega)], by rw [(hout m (by omega)).2, oay m (by omega)]⟩

/-- Loop 20 succeeds when all the elements it needs are readable. -/
theorem errLoop20_ok (h : ℝ) (ax ay : Arr33) (z : Prop) : ∀ (n : ℕ) (sx sy xl : ℝ),
    (∀ m, 0 < m → m ≤ n → ∃ u v, rd ax m = .ok u ∧ rd ay m = .ok v ∧ (z → v = 0)) → (z → sy = 0) →
    ∃ s, errLoop20 h ax ay n sx sy xl = .ok s ∧ (z → s.2 = 0)
  | 0, sx, sy, xl, _, hs => ⟨(sx, sy), rfl, hs⟩
  | n + 1, sx, sy, xl, hr, hs => by
    obtain ⟨u, v, hu, hv, hv0⟩ := hr (n + 1) (by omega) le_rfl
    obtain ⟨s, e, hs'⟩ := errLoop20_ok h ax ay z n (u * (sx + xl) - v * sy) (u * sy + v * (sx + xl)) (h * xl)
      (fun m h0 h1 => hr m h0 (by omega)) (fun hz => by rw [hs hz, hv0 hz]; ring)
    exact ⟨s, by simp only [errLoop20, hu, hv]; exact e, hs'⟩

/-- Loop 30 succeeds far from the origin. -/
theorem errLoop30_ok (xh yh : ℝ) (hx : 0 ≤ xh) (hy : 0 ≤ yh) (hfar : 0 < xh ∨ 5.33 ≤ yh) : ∀ (n : ℕ) (ax ay : Arr33),
    n ≤ 9 → (∃ u v, rd ax 1 = .ok u ∧ 0 ≤ u ∧ rd ay 1 = .ok v ∧ (yh = 0 → v = 0) ∧
      (xh = 0 → u = 0 ∧ 0 ≤ v ∧ v ≤ 1 / 8)) →
    ∃ bx by', errLoop30 xh yh n ax ay = .ok (bx, by') ∧
      ∃ u v, rd bx 1 = .ok u ∧ rd by' 1 = .ok v ∧ (yh = 0 → v = 0)
  | 0, ax, ay, _, ⟨u, v, hu, _, hv, h0, _⟩ => ⟨ax, ay, rfl, u, v, hu, hv, h0⟩
  | n + 1, ax, ay, hn, ⟨u, v, hu, hu0, hv, hv0, hz⟩ => by
    set tx := xh + (n + 1 : ℝ) * u with htxd
    set ty := yh - (n + 1 : ℝ) * v with htyd
    have hn' : (n + 1 : ℝ) ≤ 9 := by exact_mod_cast hn
    have htx : 0 ≤ tx := by positivity
    have hty4 : xh = 0 → 4 ≤ ty := by
      intro h
      obtain ⟨-, h1, h2⟩ := hz h
      have h3 : 5.33 ≤ yh := by
        rcases hfar with h' | h'
        · rw [h] at h'; exact absurd h' (lt_irrefl _)
        · exact h'
      have h4 : (n + 1 : ℝ) * v ≤ 9 * (1 / 8) := mul_le_mul hn' h2 h1 (by norm_num)
      rw [htyd]
      norm_num at h3 h4 ⊢
      linarith
    have htn : tx * tx + ty * ty ≠ 0 := by
      by_cases h : xh = 0
      · have := hty4 h
        have h5 : 0 < ty * ty := by positivity
        have := mul_self_nonneg tx
        linarith
      · have h5 : 0 < xh := lt_of_le_of_ne hx (Ne.symm h)
        have h6 : 0 < tx := by rw [htxd]; positivity
        have := mul_pos h6 h6
        have := mul_self_nonneg ty
        linarith
    have hty : yh = 0 → ty = 0 := fun h => by rw [htyd, h, hv0 h]; ring
    obtain ⟨ax', hax, rax, oax⟩ := rd_wr ax 1 (0.5 * tx / (tx * tx + ty * ty)) (by omega) (by omega)
    obtain ⟨ay', hay, ray, oay⟩ := rd_wr ay 1 (0.5 * ty / (tx * tx + ty * ty)) (by omega) (by omega)
    have hpos : 0 ≤ 0.5 * tx / (tx * tx + ty * ty) := by
      have := mul_self_nonneg ty
      positivity
    obtain ⟨bx, by', hb, hin⟩ := errLoop30_ok xh yh hx hy hfar n ax' ay' (by omega)
      ⟨_, _, rax, hpos, ray, fun h => by rw [hty h]; simp, fun h => by
        obtain ⟨h1, -, -⟩ := hz h
        have e : tx = 0 := by rw [htxd, h, h1]; ring
        have h4 := hty4 h
        have h5 : 0 < ty := by linarith
        refine ⟨by rw [e]; simp, by rw [e]; positivity, ?_⟩
        have e2 : 0.5 * ty / (tx * tx + ty * ty) = 0.5 / ty := by
          rw [e]; field_simp; ring
        rw [e2, div_le_iff₀ h5]
        norm_num
        linarith⟩
    refine ⟨bx, by', ?_, hin⟩
    simp only [errLoop30, hu, hv]
    show (do
      let vx ← dv (0.5 * tx) (tx * tx + ty * ty)
      let vy ← dv (0.5 * ty) (tx * tx + ty * ty)
      let ax' ← wr ax 1 vx
      let ay' ← wr ay 1 vy
      errLoop30 xh yh n ax' ay') = _
    rw [dv_ok _ _ htn, dv_ok _ _ htn]
    show (do
      let ax' ← wr ax 1 (0.5 * tx / (tx * tx + ty * ty))
      let ay' ← wr ay 1 (0.5 * ty / (tx * tx + ty * ty))
      errLoop30 xh yh n ax' ay') = _
    rw [hax, hay]
    exact hb

theorem errQ_pos (x y : ℝ) (hx : 0 ≤ x) (hx' : x < 5.33) (hy' : y < 4.29) : 0 < errQ x y := by
  unfold errQ
  have h1 : y / 4.29 < 1 := by rw [div_lt_one (by norm_num)]; exact hy'
  have h2 : x / 5.33 < 1 := by rw [div_lt_one (by norm_num)]; exact hx'
  have h3 : 0 ≤ x / 5.33 := by positivity
  have h4 : (x / 5.33) ^ 2 < 1 := by
    rw [sq_lt_one_iff₀ h3]; exact h2
  exact mul_pos (by linarith) (Real.sqrt_pos.2 (by linarith))

theorem errQ_le (x y : ℝ) (hy : 0 ≤ y) (hy' : y < 4.29) : errQ x y ≤ 1 := by
  unfold errQ
  have h1 : y / 4.29 < 1 := by rw [div_lt_one (by norm_num)]; exact hy'
  have h2 : 0 ≤ y / 4.29 := by positivity
  have h3 : √(1 - (x / 5.33) ^ 2) ≤ 1 := by
    refine Real.sqrt_le_one.2 ?_
    have := sq_nonneg (x / 5.33)
    linarith
  exact mul_le_one₀ (by linarith) (Real.sqrt_nonneg _) h3

/-- The first-quadrant part always succeeds, and is real on the imaginary axis. -/
theorem errQuadrant_ok (x y : ℝ) (hx : 0 ≤ x) (hy : 0 ≤ y) :
    ∃ w, errQuadrant x y = .ok w ∧ (x = 0 → w.2 = 0) := by
  unfold errQuadrant
  by_cases hc : y < 4.29 ∧ x < 5.33
  · rw [if_pos hc]
    have hq := errQ_pos x y hx hc.2 hc.1
    have hq1 := errQ_le x y hy hc.1
    set q := errQ x y with hqd
    have hh : (3.2 * q) ≠ 0 := by positivity
    have hhp : 0 < 1 / (3.2 * q) := by positivity
    have hnu : ⌊21 * q⌋₊ ≤ 21 := by
      have : ⌊21 * q⌋₊ ≤ ⌊(21 : ℝ)⌋₊ := Nat.floor_le_floor (by linarith)
      simpa using this
    have hnc : ⌊23 * q⌋₊ ≤ ⌊21 * q⌋₊ + 2 := by
      have h1 : ⌊21 * q⌋₊ + 2 = ⌊21 * q + 2⌋₊ := by
        rw [show (2 : ℝ) = ((2 : ℕ) : ℝ) by norm_num, Nat.floor_add_natCast (by positivity)]
      rw [h1]
      exact Nat.floor_le_floor (by linarith)
    obtain ⟨ax, hax, rax, -⟩ := rd_wr (fun _ => none) (10 + ⌊21 * q⌋₊ + 1) 0 (by omega) (by omega)
    obtain ⟨bx, by', hb, hin, -⟩ := errLoop10_ok (y + 0.5 / (1 / (3.2 * q))) x (by positivity) (10 + ⌊21 * q⌋₊) ax ax
      (by omega) ⟨0, 0, rax, le_rfl, rax, fun _ => rfl⟩
    obtain ⟨s, hs, hs0⟩ := errLoop20_ok (1 / (3.2 * q)) bx by' (x = 0) (7 + ⌊23 * q⌋₊) 0 0
      ((1 / (3.2 * q)) ^ (1 - ((7 + ⌊23 * q⌋₊ : ℕ) : ℤ)))
      (fun m h0 h1 => hin m h0 (by omega)) (fun _ => rfl)
    refine ⟨(errCC * s.1, errCC * s.2), ?_, fun h => by rw [show (errCC * s.1, errCC * s.2).2 = errCC * s.2 from rfl, hs0 h]; simp⟩
    show (do
      let h ← dv 1 (3.2 * q)
      let half ← dv 0.5 h
      let ax ← wr (fun _ => none) (10 + ⌊21 * q⌋₊ + 1) 0
      let ay ← wr (fun _ => none) (10 + ⌊21 * q⌋₊ + 1) 0
      let r ← errLoop10 (y + half) x (10 + ⌊21 * q⌋₊) ax ay
      let s ← errLoop20 h r.1 r.2 (7 + ⌊23 * q⌋₊) 0 0 (h ^ (1 - ((7 + ⌊23 * q⌋₊ : ℕ) : ℤ)))
      Except.ok (errCC * s.1, errCC * s.2)) = _
    rw [dv_ok _ _ hh]
    show (do
      let half ← dv 0.5 (1 / (3.2 * q))
      let ax ← wr (fun _ => none) (10 + ⌊21 * q⌋₊ + 1) 0
      let ay ← wr (fun _ => none) (10 + ⌊21 * q⌋₊ + 1) 0
      let r ← errLoop10 (y + half) x (10 + ⌊21 * q⌋₊) ax ay
      let s ← errLoop20 (1 / (3.2 * q)) r.1 r.2 (7 + ⌊23 * q⌋₊) 0 0
        ((1 / (3.2 * q)) ^ (1 - ((7 + ⌊23 * q⌋₊ : ℕ) : ℤ)))
      Except.ok (errCC * s.1, errCC * s.2)) = _
    rw [dv_ok _ _ hhp.ne', hax]
    show (do
      let r ← errLoop10 (y + 0.5 / (1 / (3.2 * q))) x (10 + ⌊21 * q⌋₊) ax ax
      let s ← errLoop20 (1 / (3.2 * q)) r.1 r.2 (7 + ⌊23 * q⌋₊) 0 0
        ((1 / (3.2 * q)) ^ (1 - ((7 + ⌊23 * q⌋₊ : ℕ) : ℤ)))
      Except.ok (errCC * s.1, errCC * s.2)) = _
    rw [hb]
    show (do
      let s ← errLoop20 (1 / (3.2 * q)) bx by' (7 + ⌊23 * q⌋₊) 0 0
        ((1 / (3.2 * q)) ^ (1 - ((7 + ⌊23 * q⌋₊ : ℕ) : ℤ)))
      Except.ok (errCC * s.1, errCC * s.2)) = _
    rw [hs]
    rfl
  · rw [if_neg hc]
    have hfar : 0 < y ∨ 5.33 ≤ x := by
      by_cases h : y < 4.29
      · right
        by_contra h'
        exact hc ⟨h, not_le.1 h'⟩
      · left
        have : (4.29 : ℝ) ≤ y := not_lt.1 h
        exact lt_of_lt_of_le (by norm_num) this
    obtain ⟨ax, hax, rax, -⟩ := rd_wr (fun _ => none) 1 0 (by omega) (by omega)
    obtain ⟨bx, by', hb, u, v, hu, hv, hv0⟩ := errLoop30_ok y x hy hx hfar 9 ax ax le_rfl
      ⟨0, 0, rax, le_rfl, rax, fun _ => rfl, fun _ => ⟨rfl, le_rfl, by norm_num⟩⟩
    refine ⟨(errCC * u, errCC * v), ?_, fun h => by
      show errCC * v = 0
      rw [hv0 h]; simp⟩
    rw [hax]
    show (do
      let r ← errLoop30 y x 9 ax ax
      let rx ← rd r.1 1
      let ry ← rd r.2 1
      Except.ok (errCC * rx, errCC * ry)) = _
    rw [hb]
    show (do
      let rx ← rd bx 1
      let ry ← rd by' 1
      Except.ok (errCC * rx, errCC * ry)) = _
    rw [hu, hv]
    rfl

end PyECLOUD
