import Mathlib.Analysis.SpecialFunctions.Trigonometric.Bounds
import Mathlib.Analysis.Convex.Basic
import Mathlib.Tactic.IntervalCases
import Verif.Model.PhotoSetup
import Verif.Spec.SimStep
import Verif.Props.Geometry

/-! # C147: photons reach the wall -/

namespace PyECLOUD

/-- **C147**, refusals: settings are accepted only if the reflected photons start on the axis and inside the chamber, and the sampled
points of the two circles on which photons end are outside. -/
theorem C147_checks (ch : Chamber ℝ) (rad : ℝ) (x0 : X0Refl) (y0 x : ℝ) (h : photoInit ch rad x0 y0 = .ok x) :
    y0 = 0 ∧ photoX0 ch rad x0 = .ok x ∧ ch.outside x 0 = false ∧
    ∀ k : ℕ, k < 10000 → ch.outside (rad * Real.cos (2 * Real.pi * k / 9999)) (rad * Real.sin (2 * Real.pi * k / 9999)) = true ∧
      ch.outside (-2 * rad * Real.cos (2 * Real.pi * k / 9999) + x) (2 * rad * Real.sin (2 * Real.pi * k / 9999)) = true := by
  unfold photoInit at h
  split at h
  · cases h
  · next hy =>
    have hy : y0 = 0 := not_not.1 hy
    subst hy
    split at h
    · cases h
    · next x' hx =>
      split at h
      · cases h
      · next ho =>
        split at h
        · cases h
        · next h1 =>
          split at h
          · cases h
          · next h2 =>
            cases h
            refine ⟨rfl, hx, by simpa using ho, fun k hk => ?_⟩
            have e : psiGen k = 2 * Real.pi * k / 9999 := by unfold psiGen; ring
            simp only [List.any_eq_true, not_exists, not_and, Bool.not_eq_true', Bool.not_eq_false, List.mem_range] at h1 h2
            rw [← e]
            exact ⟨h2 k hk, h1 k hk⟩

/-- **C147**, positive part: if no point of the chamber is as far as the radius from the origin, and the photons are reflected at a point
inside on the axis, the settings are accepted and every photon, reflected or not, of any angle starts inside and ends outside. -/
theorem C147_within_radius_partial (ch : Chamber ℝ) (rad : ℝ) (hr : 0 < rad)
    (hch : ∀ x y, ch.outside x y = false → x ^ 2 + y ^ 2 < rad ^ 2) (h0 : ch.outside 0 0 = false) (x : ℝ) (hx : ch.outside x 0 = false) :
    photoInit ch rad (.at x) 0 = .ok x ∧
    ∀ (refl : ℕ → Bool) (unif : Bool) (icdf : ℝ → ℝ) (us gs : ℕ → ℝ), RaysOk ch (fun k => photoEnds (refl k) unif rad x icdf (us k) (gs k)) := by
  have hxr : |x| < rad := by
    have := hch x 0 hx
    rw [← abs_of_pos hr]
    exact sq_lt_sq.1 (by nlinarith)
  have c1 : ∀ a : ℝ, ch.outside (rad * Real.cos a) (rad * Real.sin a) = true := by
    intro a
    by_contra hn
    have := hch _ _ (by simpa using hn)
    have e : (rad * Real.cos a) ^ 2 + (rad * Real.sin a) ^ 2 = rad ^ 2 := by
      have := Real.sin_sq_add_cos_sq a
      linear_combination rad ^ 2 * this
    linarith
  have c2 : ∀ a : ℝ, ch.outside (-2 * rad * Real.cos a + x) (2 * rad * Real.sin a) = true := by
    intro a
    by_contra hn
    have h1 := hch _ _ (Bool.not_eq_true _ ▸ hn)
    have e : (-2 * rad * Real.cos a + x) ^ 2 + (2 * rad * Real.sin a) ^ 2 = 4 * rad ^ 2 - 4 * rad * x * Real.cos a + x ^ 2 := by
      have := Real.sin_sq_add_cos_sq a
      linear_combination 4 * rad ^ 2 * this
    rw [e] at h1
    have h2 : x * Real.cos a ≤ |x| := by
      calc x * Real.cos a ≤ |x * Real.cos a| := le_abs_self _
        _ = |x| * |Real.cos a| := abs_mul _ _
        _ ≤ |x| * 1 := mul_le_mul_of_nonneg_left (Real.abs_cos_le_one a) (abs_nonneg x)
        _ = |x| := mul_one _
    have h3 : (2 * rad - |x|) ^ 2 ≤ 4 * rad ^ 2 - 4 * rad * x * Real.cos a + x ^ 2 := by
      have : |x| ^ 2 = x ^ 2 := sq_abs x
      nlinarith
    have h4 : rad < 2 * rad - |x| := by linarith
    nlinarith
  refine ⟨?_, fun refl unif icdf us gs k => ?_⟩
  · unfold photoInit
    rw [if_neg (by simp)]
    simp only [photoX0, hx, c1, c2]
    simp
  · change ch.outside (photoEnds (refl k) unif rad x icdf (us k) (gs k)).1.1 (photoEnds (refl k) unif rad x icdf (us k) (gs k)).1.2 = false ∧
      ch.outside (photoEnds (refl k) unif rad x icdf (us k) (gs k)).2.1 (photoEnds (refl k) unif rad x icdf (us k) (gs k)).2.2 = true
    cases hrf : refl k
    · exact ⟨h0, c1 _⟩
    · cases unif
      · exact ⟨hx, c2 _⟩
      · exact ⟨h0, c1 _⟩

/-- finitely many positive numbers have a positive lower bound -/
theorem exists_lower (n : ℕ) (P : ℕ → Prop) (f : ℕ → ℝ) (h : ∀ k < n, P k → 0 < f k) : ∃ e > 0, ∀ k < n, P k → e ≤ f k := by
  induction n with
  | zero => exact ⟨1, one_pos, fun k hk => absurd hk (Nat.not_lt_zero k)⟩
  | succ n ih =>
    obtain ⟨e, he, hb⟩ := ih (fun k hk => h k (by omega))
    by_cases hp : P n
    · refine ⟨min e (f n), lt_min he (h n (by omega) hp), fun k hk hpk => ?_⟩
      rcases Nat.lt_succ_iff_lt_or_eq.1 hk with hk | rfl
      · exact (min_le_left _ _).trans (hb k hk hpk)
      · exact min_le_right _ _
    · refine ⟨e, he, fun k hk hpk => ?_⟩
      rcases Nat.lt_succ_iff_lt_or_eq.1 hk with hk | rfl
      · exact hb k hk hpk
      · exact absurd hpk hp

theorem sin_ratio_ne (m : ℤ) (h : ∀ j : ℤ, m ≠ 9999 * j) : Real.sin (m * Real.pi / 9999) ≠ 0 := by
  intro hs
  obtain ⟨j, hj⟩ := Real.sin_eq_zero_iff.1 hs
  apply h j
  have : (j : ℝ) * 9999 = m := by
    have hp := Real.pi_ne_zero
    field_simp at hj
    linarith
  exact_mod_cast (by linarith : (m : ℝ) = 9999 * j)

theorem odd_multiple (m j : ℤ) (h1 : -1 ≤ m) (h2 : m < 29997) (ho : m % 2 = 1) (hj : m = 9999 * j) : m = 9999 := by
  have a : -1 < j := by
    by_contra hn
    have : j ≤ -1 := by linarith
    linarith
  have b : j < 3 := by
    by_contra hn
    have : 3 ≤ j := by linarith
    linarith
  interval_cases j
  · rw [hj] at ho; norm_num at ho
  · linarith
  · rw [hj] at ho; norm_num at ho

/-- a slim rectangular chamber turned by half the angle between two samples, as a predicate -/
noncomputable def slimIn (e x y : ℝ) : Prop :=
  -(1 / 2) < x * Real.cos (Real.pi / 9999) + y * Real.sin (Real.pi / 9999) ∧
  x * Real.cos (Real.pi / 9999) + y * Real.sin (Real.pi / 9999) < 3 / 2 ∧
  |y * Real.cos (Real.pi / 9999) - x * Real.sin (Real.pi / 9999)| < e

open Classical in
/-- **C147 is false of the code.** The radius is tested at 10000 angles only. A slim convex chamber that passes between two of them is
accepted with a radius of 1, although a photon in its direction ends inside the chamber. -/
theorem C147_between_samples_violated : ∃ ch : Chamber ℝ, Convex ℝ {p : ℝ × ℝ | ch.outside p.1 p.2 = false} ∧ ch.outside 0 0 = false ∧
    photoInit ch 1 (.at 0) 0 = .ok 0 ∧
    ∃ g, ch.outside (photoEnds false true 1 0 id 0 g).2.1 (photoEnds false true 1 0 id 0 g).2.2 = false := by
  have hp : ∀ k : ℕ, k < 10000 → k ≠ 5000 → 0 < |Real.sin (((2 * k - 1 : ℤ) : ℝ) * Real.pi / 9999)| := by
    intro k hk hne
    refine abs_pos.2 (sin_ratio_ne _ (fun j hj => hne ?_))
    have hk' : (k : ℤ) < 10000 := by exact_mod_cast hk
    have h0 : (0 : ℤ) ≤ k := Int.natCast_nonneg k
    have := odd_multiple _ j (by linarith) (by linarith) (by generalize (k : ℤ) = z; omega) hj
    have : (k : ℤ) = (5000 : ℕ) := by push_cast; linarith
    exact_mod_cast this
  have hq : ∀ k : ℕ, k < 10000 → k ≠ 4999 → 0 < |Real.sin (((2 * k + 1 : ℤ) : ℝ) * Real.pi / 9999)| := by
    intro k hk hne
    refine abs_pos.2 (sin_ratio_ne _ (fun j hj => hne ?_))
    have hk' : (k : ℤ) < 10000 := by exact_mod_cast hk
    have h0 : (0 : ℤ) ≤ k := Int.natCast_nonneg k
    have := odd_multiple _ j (by linarith) (by linarith) (by generalize (k : ℤ) = z; omega) hj
    have : (k : ℤ) = (4999 : ℕ) := by push_cast; linarith
    exact_mod_cast this
  obtain ⟨e1, he1, hb1⟩ := exists_lower 10000 (fun k => k ≠ 5000) (fun k : ℕ => |Real.sin (((2 * k - 1 : ℤ) : ℝ) * Real.pi / 9999)|) hp
  obtain ⟨e2, he2, hb2⟩ := exists_lower 10000 (fun k => k ≠ 4999) (fun k : ℕ => |Real.sin (((2 * k + 1 : ℤ) : ℝ) * Real.pi / 9999)|) hq
  have he : 0 < min e1 e2 := lt_min he1 he2
  set θ := Real.pi / 9999 with hθ
  have hcs := Real.sin_sq_add_cos_sq θ
  have hins : ∀ x y : ℝ, (fun x y => decide (¬ slimIn (min e1 e2) x y)) x y = false ↔ slimIn (min e1 e2) x y := by
    intro x y; simp
  have c1 : ∀ k : ℕ, k < 10000 → ¬ slimIn (min e1 e2) (1 * Real.cos (psiGen k)) (1 * Real.sin (psiGen k)) := by
    intro k hk hin
    obtain ⟨h1, _, h3⟩ := hin
    have e1' : 1 * Real.sin (psiGen k) * Real.cos θ - 1 * Real.cos (psiGen k) * Real.sin θ = Real.sin (psiGen k - θ) := by
      rw [Real.sin_sub]; ring
    have e2' : 1 * Real.cos (psiGen k) * Real.cos θ + 1 * Real.sin (psiGen k) * Real.sin θ = Real.cos (psiGen k - θ) := by
      rw [Real.cos_sub]; ring
    have e3 : psiGen k - θ = ((2 * k - 1 : ℤ) : ℝ) * Real.pi / 9999 := by
      unfold psiGen; rw [hθ]; push_cast; ring
    rw [← hθ, e1', e3] at h3
    rw [← hθ, e2', e3] at h1
    by_cases h5 : k = 5000
    · subst h5
      have : ((2 * (5000 : ℕ) - 1 : ℤ) : ℝ) * Real.pi / 9999 = Real.pi := by push_cast; ring
      rw [this, Real.cos_pi] at h1
      norm_num at h1
    · exact absurd h3 (not_lt.2 ((min_le_left _ _).trans (hb1 k hk h5)))
  have c2 : ∀ k : ℕ, k < 10000 → ¬ slimIn (min e1 e2) (-2 * 1 * Real.cos (psiGen k) + 0) (2 * 1 * Real.sin (psiGen k)) := by
    intro k hk hin
    obtain ⟨_, h2, h3⟩ := hin
    have e1' : 2 * 1 * Real.sin (psiGen k) * Real.cos θ - (-2 * 1 * Real.cos (psiGen k) + 0) * Real.sin θ = 2 * Real.sin (psiGen k + θ) := by
      rw [Real.sin_add]; ring
    have e2' : (-2 * 1 * Real.cos (psiGen k) + 0) * Real.cos θ + 2 * 1 * Real.sin (psiGen k) * Real.sin θ = -2 * Real.cos (psiGen k + θ) := by
      rw [Real.cos_add]; ring
    have e3 : psiGen k + θ = ((2 * k + 1 : ℤ) : ℝ) * Real.pi / 9999 := by
      unfold psiGen; rw [hθ]; push_cast; ring
    rw [← hθ, e1', e3, abs_mul, abs_two] at h3
    rw [← hθ, e2', e3] at h2
    by_cases h5 : k = 4999
    · subst h5
      have : ((2 * (4999 : ℕ) + 1 : ℤ) : ℝ) * Real.pi / 9999 = Real.pi := by push_cast; ring
      rw [this, Real.cos_pi] at h2
      norm_num at h2
    · have := (min_le_right e1 e2).trans (hb2 k hk h5)
      have h0 := abs_nonneg (Real.sin (((2 * k + 1 : ℤ) : ℝ) * Real.pi / 9999))
      linarith
  have h00 : slimIn (min e1 e2) 0 0 := by
    unfold slimIn
    refine ⟨by norm_num, by norm_num, by simpa using he⟩
  refine ⟨⟨fun x y => decide (¬ slimIn (min e1 e2) x y), fun _ _ => .error .valueError⟩, ?_, by simpa using h00, ?_, θ, ?_⟩
  · have : {p : ℝ × ℝ | decide (¬ slimIn (min e1 e2) p.1 p.2) = false} = {p : ℝ × ℝ | slimIn (min e1 e2) p.1 p.2} := by
      ext p; simp
    rw [this]
    rintro ⟨x, y⟩ ⟨a1, a2, a3⟩ ⟨u, v⟩ ⟨b1, b2, b3⟩ s t hs ht hst
    obtain ⟨a3, a4⟩ := abs_lt.1 a3
    obtain ⟨b3, b4⟩ := abs_lt.1 b3
    simp only at a1 a2 a3 a4 b1 b2 b3 b4
    have key : ∀ A B lo hi : ℝ, lo < A → A < hi → lo < B → B < hi → lo < s * A + t * B ∧ s * A + t * B < hi := by
      intro A B lo hi p1 p2 p3 p4
      have ht' : t = 1 - s := by linarith
      subst ht'
      rcases eq_or_lt_of_le hs with rfl | hs'
      · constructor <;> linarith
      · constructor <;> nlinarith
    obtain ⟨k1, k2⟩ := key _ _ _ _ a1 a2 b1 b2
    obtain ⟨k3, k4⟩ := key _ _ _ _ a3 a4 b3 b4
    refine ⟨?_, ?_, abs_lt.2 ⟨?_, ?_⟩⟩ <;> simp only [Prod.fst_add, Prod.snd_add, Prod.smul_fst, Prod.smul_snd, smul_eq_mul] <;> linarith
  · unfold photoInit
    rw [if_neg (by simp)]
    simp only [photoX0]
    have q0 : decide (¬ slimIn (min e1 e2) 0 0) = false := by simpa using h00
    rw [q0]
    have q1 : (List.range 10000).any (fun k => !decide (¬ slimIn (min e1 e2) (-2 * 1 * Real.cos (psiGen k) + 0) (2 * 1 * Real.sin (psiGen k)))) =
        false := by
      rw [List.any_eq_false]
      intro k hk
      simpa using c2 k (List.mem_range.1 hk)
    have q2 : (List.range 10000).any (fun k => !decide (¬ slimIn (min e1 e2) (1 * Real.cos (psiGen k)) (1 * Real.sin (psiGen k)))) = false := by
      rw [List.any_eq_false]
      intro k hk
      simpa using c1 k (List.mem_range.1 hk)
    rw [q1, q2]
    simp
  · unfold photoEnds
    simp only [Bool.false_eq_true, if_false, one_mul]
    refine (hins _ _).2 ?_
    unfold slimIn
    rw [← hθ]
    refine ⟨by nlinarith, by nlinarith, ?_⟩
    have : Real.sin θ * Real.cos θ - Real.cos θ * Real.sin θ = 0 := by ring
    rw [this]
    simpa using he

/-- **C147 is false of the code**: photoemission from a file takes any radius; with one inside the chamber all photons end inside. -/
theorem C147_file_unchecked_violated (ch : Chamber ℝ) (rad : ℝ) (hin : ∀ x y, x ^ 2 + y ^ 2 ≤ rad ^ 2 → ch.outside x y = false) :
    photoFileInit ch rad = .ok rad ∧
    ∀ (unif : Bool) (icdf : ℝ → ℝ) (u : ℝ), ch.outside (photoFileEnds unif rad icdf u).2.1 (photoFileEnds unif rad icdf u).2.2 = false := by
  refine ⟨rfl, fun unif icdf u => hin _ _ (le_of_eq ?_)⟩
  unfold photoFileEnds
  simp only
  have := Real.sin_sq_add_cos_sq (if unif then u * 2 * Real.pi else icdf u)
  linear_combination rad ^ 2 * this

/-- **C147**, position of the source: in a convex polygonal chamber containing the origin, with three radii beyond a wall,
`'right'` and `'left'` stand for the place of the wall on that side of the horizontal axis, moved inward by the
factor `resc`: the axis is inside up to the distance `w` and not from there on. -/
theorem C147_source (vs : List (ℝ × ℝ)) (cx cy : ℝ) (P : Poly ℝ) (hP : mkPoly Real.sqrt vs cx cy true = .ok P)
    (resc : ℝ) (h0 : 0 ≤ resc) (h1 : resc < 1) (robust : Bool) (rad : ℝ) (hr : 0 < rad) (hp : StrictlyInside vs (0, 0))
    (sg : ℝ) (x0 : X0Refl) (hx0 : (x0 = .right ∧ sg = 1) ∨ (x0 = .left ∧ sg = -1))
    (hq : ∃ i < vs.length, cross3 (vtx vs i) (vtx vs (i + 1)) (sg * (3 * rad), 0) < 0) :
    ∃ w : ℝ, 0 < w ∧ w < 3 * rad ∧ photoX0 (P.chamber resc robust) rad x0 = .ok (sg * (resc * w)) ∧
      (∀ v, 0 ≤ v → v < w → StrictlyInside vs (sg * v, 0)) ∧ ∀ v, w ≤ v → ¬ StrictlyInside vs (sg * v, 0) := by
  obtain ⟨h, u, i, hh, u0, u1, -, -, -, hb, ha, hxy, -⟩ :=
    C48_first_exit_partial Real.sqrt (fun a ha => ⟨Real.sqrt_pos.2 ha, Real.mul_self_sqrt ha.le⟩) vs cx cy P hP resc h0 h1 robust (0, 0) (sg * (3 * rad), 0) 0 0 hp hq
  have h3 : 0 < 3 * rad := by linarith
  have hx : h.x = sg * (resc * (u * (3 * rad))) := by
    have := congrArg Prod.fst hxy
    simp only [pointAt] at this
    rw [this]; ring
  have hpt : ∀ v : ℝ, pointAt ((0, 0) : ℝ × ℝ) (sg * (3 * rad), 0) (v / (3 * rad)) = (sg * v, 0) := by
    intro v
    unfold pointAt
    simp only [Prod.mk.injEq]
    constructor
    · field_simp; ring
    · ring
  refine ⟨u * (3 * rad), mul_pos u0 h3, by nlinarith, ?_, ?_, ?_⟩
  · rcases hx0 with ⟨rfl, rfl⟩ | ⟨rfl, rfl⟩
    · simp only [photoX0, Poly.chamber]
      simp only [one_mul] at hh hx
      rw [hh]
      simp only [hx, one_mul]
    · simp only [photoX0, Poly.chamber]
      have e : (3 : ℝ) * -rad = -1 * (3 * rad) := by ring
      rw [e, hh]
      simp only [hx]
  · intro v hv0 hv
    rw [← hpt v]
    exact hb _ (div_nonneg hv0 h3.le) ((div_lt_iff₀ h3).2 hv)
  · intro v hv
    rw [← hpt v]
    exact ha _ ((le_div_iff₀ h3).2 hv)

/-- hypotheses of `C147_source`: the square chamber and a radius of 1 -/
example : (∃ P, mkRect Real.sqrt 1 1 = .ok P) ∧ StrictlyInside sq2 (0, 0) ∧
    (∃ i < sq2.length, cross3 (vtx sq2 i) (vtx sq2 (i + 1)) ((1 : ℝ) * (3 * 1), 0) < 0) := by
  refine ⟨sq2_ok, ?_, 3, by simp [sq2], by norm_num [sq2, vtx, cross3]⟩
  intro i hi
  simp only [sq2, List.length_cons, List.length_nil] at hi
  interval_cases i <;> norm_num [sq2, vtx, cross3]

open Classical in
/-- a round chamber of radius 1 -/
noncomputable def roundCh : Chamber ℝ := ⟨fun x y => decide (1 ≤ x ^ 2 + y ^ 2), fun _ _ => .error .valueError⟩

/-- hypotheses of `C147_within_radius_partial`: the round chamber with a radius of 3 and photons reflected at its side -/
example : (0 : ℝ) < 3 ∧ (∀ x y, roundCh.outside x y = false → x ^ 2 + y ^ 2 < (3 : ℝ) ^ 2) ∧ roundCh.outside 0 0 = false ∧
    roundCh.outside (9 / 10) 0 = false := by
  refine ⟨by norm_num, fun x y h => ?_, ?_, ?_⟩
  · simp only [roundCh, decide_eq_false_iff_not, not_le] at h
    linarith
  · simp [roundCh]
  · simp only [roundCh, decide_eq_false_iff_not, not_le]; norm_num

/-- hypothesis of `C147_file_unchecked_violated`: the same chamber with a radius of 1/2 -/
example : ∀ x y : ℝ, x ^ 2 + y ^ 2 ≤ (1 / 2 : ℝ) ^ 2 → roundCh.outside x y = false := by
  intro x y h
  simp only [roundCh, decide_eq_false_iff_not, not_le]
  linarith

end PyECLOUD
