import Verif.Spec.Balance
import Verif.Lemmas.Dynamics
import Verif.Lemmas.ConvergeRun

/-! # Lemmas for the balances of energy and momentum -/

set_option linter.unusedSectionVars false

namespace PyECLOUD

variable {K : Type} [Field K] [LinearOrder K] [IsStrictOrderedRing K]

theorem rot_newton (tx ty tz ux uy uz : K) :
    let D := 1 + (tx * tx + ty * ty + tz * tz)
    let wx := uy * tz - uz * ty + ux
    let wy := uz * tx - ux * tz + uy
    let wz := ux * ty - uy * tx + uz
    let px := wy * (2 * tz / D) - wz * (2 * ty / D) + ux
    let py := wz * (2 * tx / D) - wx * (2 * tz / D) + uy
    let pz := wx * (2 * ty / D) - wy * (2 * tx / D) + uz
    px - ux = (py + uy) * tz - (pz + uz) * ty ∧ py - uy = (pz + uz) * tx - (px + ux) * tz ∧ pz - uz = (px + ux) * ty - (py + uy) * tx := by
  have hD : 1 + (tx * tx + ty * ty + tz * tz) ≠ 0 := by
    have h1 := mul_self_nonneg tx
    have h2 := mul_self_nonneg ty
    have h3 := mul_self_nonneg tz
    exact ne_of_gt (by linarith [zero_lt_one (α := K)])
  intro D wx wy wz px py pz
  simp only [px, py, pz, wx, wy, wz, D]
  refine ⟨?_, ?_, ?_⟩ <;> field_simp <;> ring

/-- the law of one sub-step, in components -/
theorem kick_newton (qm d : K) (e b : V3 K) (p : Phase K) :
    let q := borisKick qm d e b p
    q.vx - p.vx = qm * d * (e.x + ((q.vy + p.vy) / 2 * b.z - (q.vz + p.vz) / 2 * b.y)) ∧
    q.vy - p.vy = qm * d * (e.y + ((q.vz + p.vz) / 2 * b.x - (q.vx + p.vx) / 2 * b.z)) ∧
    q.vz - p.vz = qm * d * (e.z + ((q.vx + p.vx) / 2 * b.y - (q.vy + p.vy) / 2 * b.x)) := by
  intro q
  obtain ⟨h1, h2, h3⟩ := rot_newton (1 / 2 * qm * d * b.x) (1 / 2 * qm * d * b.y) (1 / 2 * qm * d * b.z)
    (p.vx + 1 / 2 * qm * e.x * d) (p.vy + 1 / 2 * qm * e.y * d) (p.vz + 1 / 2 * qm * e.z * d)
  simp only [q, borisKick]
  refine ⟨?_, ?_, ?_⟩
  · linear_combination h1
  · linear_combination h2
  · linear_combination h3

theorem kick_pos (qm d : K) (e b : V3 K) (p : Phase K) :
    let q := borisKick qm d e b p
    q.x = p.x + q.vx * d ∧ q.y = p.y + q.vy * d ∧ q.z = p.z + q.vz * d := ⟨rfl, rfl, rfl⟩

/-- work of one sub-step -/
theorem kick_work (qm d : K) (e b : V3 K) (p : Phase K) :
    (borisKick qm d e b p).vel.dot (borisKick qm d e b p).vel - p.vel.dot p.vel
      = 2 * qm * e.dot (((borisKick qm d e b p).mid d).minus (p.mid d)) := by
  obtain ⟨h1, h2, h3⟩ := kick_newton qm d e b p
  obtain ⟨h4, h5, h6⟩ := kick_pos qm d e b p
  generalize borisKick qm d e b p = q at *
  simp only [V3.dot, Phase.vel, Phase.mid, Phase.pos, V3.minus, V3.times]
  rw [h4, h5, h6]
  linear_combination (q.vx + p.vx) * h1 + (q.vy + p.vy) * h2 + (q.vz + p.vz) * h3

theorem sub_work (qm d : K) (e : V3 K) (B : K → K → V3 K) (n : ℕ) : ∀ p : Phase K,
    (borisSub qm d e B n p).vel.dot (borisSub qm d e B n p).vel - p.vel.dot p.vel
      = 2 * qm * e.dot (((borisSub qm d e B n p).mid d).minus (p.mid d)) := by
  induction n with
  | zero => intro p; simp only [borisSub, V3.dot, V3.minus]; ring
  | succ n ih =>
    intro p
    have h1 := kick_work qm d e (B p.x p.y) p
    have h2 := ih (borisKick qm d e (B p.x p.y) p)
    simp only [borisSub]
    generalize borisSub qm d e B n (borisKick qm d e (B p.x p.y) p) = r at *
    generalize borisKick qm d e (B p.x p.y) p = q at *
    simp only [V3.dot, V3.minus] at *
    linear_combination h1 + h2

/-- momentum of one sub-step -/
theorem kick_momentum (qm d : K) (e b : V3 K) (p : Phase K) :
    (borisKick qm d e b p).vel.minus p.vel
      = V3.times qm ((V3.times d e).plus ((((borisKick qm d e b p).mid d).minus (p.mid d)).cross b)) := by
  obtain ⟨h1, h2, h3⟩ := kick_newton qm d e b p
  obtain ⟨h4, h5, h6⟩ := kick_pos qm d e b p
  generalize borisKick qm d e b p = q at *
  simp only [V3.cross, V3.plus, Phase.vel, Phase.mid, Phase.pos, V3.minus, V3.times]
  rw [h4, h5, h6]
  ext
  · linear_combination h1
  · linear_combination h2
  · linear_combination h3

theorem sub_momentum (qm d : K) (e b : V3 K) (n : ℕ) : ∀ p : Phase K,
    (borisSub qm d e (fun _ _ => b) n p).vel.minus p.vel
      = V3.times qm ((V3.times (n * d) e).plus ((((borisSub qm d e (fun _ _ => b) n p).mid d).minus (p.mid d)).cross b)) := by
  induction n with
  | zero => intro p; simp only [borisSub, V3.cross, V3.minus, V3.times, V3.plus]; ext <;> push_cast <;> ring
  | succ n ih =>
    intro p
    have h1 := kick_momentum qm d e b p
    have h2 := ih (borisKick qm d e b p)
    simp only [borisSub]
    generalize borisSub qm d e (fun _ _ => b) n (borisKick qm d e b p) = r at *
    generalize borisKick qm d e b p = q at *
    simp only [V3.cross, V3.minus, V3.plus, V3.times, V3.mk.injEq] at *
    push_cast
    obtain ⟨a1, a2, a3⟩ := h1
    obtain ⟨b1, b2, b3⟩ := h2
    refine ⟨?_, ?_, ?_⟩
    · linear_combination a1 + b1
    · linear_combination a2 + b2
    · linear_combination a3 + b3

/-- along the magnetic field the motion is uniform if the electric field has no component along it -/
theorem kick_along (qm d : K) (e b : V3 K) (h : e.dot b = 0) (p : Phase K) :
    (borisKick qm d e b p).vel.dot b = p.vel.dot b ∧ (((borisKick qm d e b p).mid d).minus (p.mid d)).dot b = d * p.vel.dot b := by
  obtain ⟨h1, h2, h3⟩ := kick_newton qm d e b p
  obtain ⟨h4, h5, h6⟩ := kick_pos qm d e b p
  generalize borisKick qm d e b p = q at *
  simp only [V3.dot, Phase.vel, Phase.mid, Phase.pos, V3.minus, V3.times] at *
  have hv : q.vx * b.x + q.vy * b.y + q.vz * b.z = p.vx * b.x + p.vy * b.y + p.vz * b.z := by
    linear_combination b.x * h1 + b.y * h2 + b.z * h3 + qm * d * h
  refine ⟨hv, ?_⟩
  rw [h4, h5, h6]
  linear_combination d / 2 * hv

theorem sub_along (qm d : K) (e b : V3 K) (h : e.dot b = 0) (n : ℕ) : ∀ p : Phase K,
    (borisSub qm d e (fun _ _ => b) n p).vel.dot b = p.vel.dot b ∧
      (((borisSub qm d e (fun _ _ => b) n p).mid d).minus (p.mid d)).dot b = n * d * p.vel.dot b := by
  induction n with
  | zero => intro p; simp only [borisSub, V3.dot, V3.minus, true_and]; push_cast; ring
  | succ n ih =>
    intro p
    have h1 := kick_along qm d e b h p
    have h2 := ih (borisKick qm d e b p)
    simp only [borisSub]
    generalize borisSub qm d e (fun _ _ => b) n (borisKick qm d e b p) = r at *
    generalize borisKick qm d e b p = q at *
    simp only [V3.dot, V3.minus] at *
    push_cast
    refine ⟨h2.1.trans h1.1, ?_⟩
    linear_combination h1.2 + h2.2 + n * d * h1.1

/-! ## many steps -/

theorem steps_work (qm d : K) (E : ℕ → V3 K) (B : K → K → V3 K) (m N : ℕ) (q : ℕ → Phase K)
    (hq : ∀ k < N, q (k + 1) = borisSub qm d (E k) B m (q k)) (n : ℕ) (hn : n ≤ N) :
    (q n).vel.dot (q n).vel - (q 0).vel.dot (q 0).vel
      = 2 * qm * ((List.range n).map (fun k => (E k).dot (((q (k + 1)).mid d).minus ((q k).mid d)))).sum := by
  induction n with
  | zero => simp
  | succ n ih =>
    rw [List.range_succ, List.map_append, List.sum_append]
    have h1 := ih (by omega)
    have h2 := sub_work qm d (E n) B m (q n)
    rw [← hq n (by omega)] at h2
    simp only [List.map_cons, List.map_nil, List.sum_cons, List.sum_nil, add_zero]
    linear_combination h1 + h2

theorem V3.sum_plus (l : List (V3 K)) (a : V3 K) :
    (l ++ [a]).foldr V3.plus ⟨0, 0, 0⟩ = (l.foldr V3.plus ⟨0, 0, 0⟩).plus a := by
  induction l with
  | nil => simp [V3.plus]
  | cons b l ih =>
    simp only [List.cons_append, List.foldr_cons, ih, V3.plus]
    ext <;> simp only <;> ring

theorem steps_momentum (qm d : K) (E : ℕ → V3 K) (b : V3 K) (m N : ℕ) (q : ℕ → Phase K)
    (hq : ∀ k < N, q (k + 1) = borisSub qm d (E k) (fun _ _ => b) m (q k)) (n : ℕ) (hn : n ≤ N) :
    (q n).vel.minus (q 0).vel
      = V3.times qm ((V3.times (m * d) (((List.range n).map E).foldr V3.plus ⟨0, 0, 0⟩)).plus ((((q n).mid d).minus ((q 0).mid d)).cross b)) := by
  induction n with
  | zero => simp [V3.minus, V3.times, V3.plus, V3.cross]
  | succ n ih =>
    rw [List.range_succ, List.map_append, List.map_cons, List.map_nil, V3.sum_plus]
    have h1 := ih (by omega)
    have h2 := sub_momentum qm d (E n) b m (q n)
    rw [← hq n (by omega)] at h2
    generalize ((List.range n).map E).foldr V3.plus ⟨0, 0, 0⟩ = S at *
    simp only [V3.cross, V3.minus, V3.plus, V3.times, V3.mk.injEq] at *
    obtain ⟨a1, a2, a3⟩ := h1
    obtain ⟨b1, b2, b3⟩ := h2
    refine ⟨?_, ?_, ?_⟩
    · linear_combination a1 + b1
    · linear_combination a2 + b2
    · linear_combination a3 + b3

theorem steps_along (qm d : K) (e b : V3 K) (h : e.dot b = 0) (m N : ℕ) (q : ℕ → Phase K)
    (hq : ∀ k < N, q (k + 1) = borisSub qm d e (fun _ _ => b) m (q k)) (n : ℕ) (hn : n ≤ N) :
    (q n).vel.dot b = (q 0).vel.dot b ∧ (((q n).mid d).minus ((q 0).mid d)).dot b = n * (m * d) * (q 0).vel.dot b := by
  induction n with
  | zero => refine ⟨rfl, ?_⟩; simp only [V3.dot, V3.minus]; push_cast; ring
  | succ n ih =>
    have h1 := ih (by omega)
    have h2 := sub_along qm d e b h m (q n)
    rw [← hq n (by omega)] at h2
    refine ⟨h2.1.trans h1.1, ?_⟩
    simp only [V3.dot, V3.minus] at *
    push_cast
    linear_combination h1.2 + h2.2 + m * d * h1.1

theorem foldr_const (e : V3 K) (n : ℕ) :
    ((List.range n).map (fun _ => e)).foldr V3.plus ⟨0, 0, 0⟩ = V3.times (n : K) e := by
  induction n with
  | zero => simp [V3.times]
  | succ n ih =>
    rw [List.range_succ, List.map_append, List.map_cons, List.map_nil, V3.sum_plus, ih]
    simp only [V3.plus, V3.times]
    ext <;> push_cast <;> ring

theorem drift_alg (qm T : K) (e b : V3 K) (h : e.dot b = 0) (hb : b.dot b ≠ 0) (v v0 M : V3 K)
    (h1 : v.dot v - v0.dot v0 = 2 * qm * e.dot M) (h2 : v.minus v0 = V3.times qm ((V3.times T e).plus (M.cross b)))
    (h3 : M.dot b = T * v0.dot b) (u w0 w D : V3 K) (hu : u = V3.times (1 / b.dot b) (e.cross b)) (hw0 : w0 = v0.minus u)
    (hw : w = v.minus u) (hD : D = M.minus (V3.times T u)) :
    w.dot w = w0.dot w0 ∧ w.minus w0 = V3.times qm (D.cross b) ∧ D.dot b = T * v0.dot b ∧
      qm ^ 2 * (D.cross b).dot (D.cross b) ≤ 4 * w0.dot w0 := by
  obtain ⟨c, hc⟩ : ∃ c, c = 1 / b.dot b := ⟨_, rfl⟩
  have hcb : c * b.dot b = 1 := by rw [hc]; field_simp
  rw [← hc] at hu
  simp only [V3.dot, V3.cross, V3.times, V3.minus, V3.plus, V3.mk.injEq] at h h1 h2 h3 hu hcb hw0 hw hD ⊢
  obtain ⟨a1, a2, a3⟩ := h2
  have u1 : u.y * b.z - u.z * b.y = -e.x := by
    rw [hu]; simp only; linear_combination c * b.x * h - e.x * hcb
  have u2 : u.z * b.x - u.x * b.z = -e.y := by
    rw [hu]; simp only; linear_combination c * b.y * h - e.y * hcb
  have u3 : u.x * b.y - u.y * b.x = -e.z := by
    rw [hu]; simp only; linear_combination c * b.z * h - e.z * hcb
  have ub : u.x * b.x + u.y * b.y + u.z * b.z = 0 := by rw [hu]; simp only; ring
  have ue : u.x * e.x + u.y * e.y + u.z * e.z = 0 := by rw [hu]; simp only; ring
  clear hu hcb hc
  have e1 : w.dot w = w0.dot w0 := by
    rw [hw, hw0]
    simp only [V3.dot]
    linear_combination h1 - 2 * u.x * a1 - 2 * u.y * a2 - 2 * u.z * a3 - 2 * qm * T * ue + 2 * qm * (M.x * u1 + M.y * u2 + M.z * u3)
  have d1 : w.x - w0.x = qm * (D.y * b.z - D.z * b.y) := by
    rw [hw, hw0, hD]; simp only; linear_combination a1 + qm * T * u1
  have d2 : w.y - w0.y = qm * (D.z * b.x - D.x * b.z) := by
    rw [hw, hw0, hD]; simp only; linear_combination a2 + qm * T * u2
  have d3 : w.z - w0.z = qm * (D.x * b.y - D.y * b.x) := by
    rw [hw, hw0, hD]; simp only; linear_combination a3 + qm * T * u3
  have e2 : D.x * b.x + D.y * b.y + D.z * b.z = T * (v0.x * b.x + v0.y * b.y + v0.z * b.z) := by
    rw [hD]; simp only; linear_combination h3 - T * ub
  clear hw hw0 hD a1 a2 a3
  simp only [V3.dot] at e1
  refine ⟨e1, ⟨d1, d2, d3⟩, e2, ?_⟩
  have e3 : qm ^ 2 * ((D.y * b.z - D.z * b.y) * (D.y * b.z - D.z * b.y) + (D.z * b.x - D.x * b.z) * (D.z * b.x - D.x * b.z) +
      (D.x * b.y - D.y * b.x) * (D.x * b.y - D.y * b.x)) = (w.x - w0.x) ^ 2 + (w.y - w0.y) ^ 2 + (w.z - w0.z) ^ 2 := by
    rw [d1, d2, d3]; ring
  rw [e3]
  nlinarith [sq_nonneg (w.x + w0.x), sq_nonneg (w.y + w0.y), sq_nonneg (w.z + w0.z)]

/-- the drift of crossed fields -/
theorem steps_drift (qm d : K) (e b : V3 K) (h : e.dot b = 0) (hb : b.dot b ≠ 0) (m N : ℕ) (q : ℕ → Phase K)
    (hq : ∀ k < N, q (k + 1) = borisSub qm d e (fun _ _ => b) m (q k)) (n : ℕ) (hn : n ≤ N) (u w0 w D : V3 K)
    (hu : u = V3.times (1 / b.dot b) (e.cross b)) (hw0 : w0 = (q 0).vel.minus u) (hw : w = (q n).vel.minus u)
    (hD : D = (((q n).mid d).minus ((q 0).mid d)).minus (V3.times (n * (m * d)) u)) :
    w.dot w = w0.dot w0 ∧ w.minus w0 = V3.times qm (D.cross b) ∧ D.dot b = n * (m * d) * (q 0).vel.dot b ∧
      qm ^ 2 * (D.cross b).dot (D.cross b) ≤ 4 * w0.dot w0 := by
  have h1 := steps_work qm d (fun _ => e) (fun _ _ => b) m N q hq n hn
  have h2 := steps_momentum qm d (fun _ => e) b m N q hq n hn
  have h3 := (steps_along qm d e b h m N q hq n hn).2
  rw [foldr_const] at h2
  have h1' : (q n).vel.dot (q n).vel - (q 0).vel.dot (q 0).vel = 2 * qm * e.dot (((q n).mid d).minus ((q 0).mid d)) := by
    rw [h1]
    congr 1
    clear h1 h2 h3 hD hw hn
    induction n with
    | zero => simp [V3.dot, V3.minus]
    | succ n ih =>
      rw [List.range_succ, List.map_append, List.sum_append, ih]
      simp only [List.map_cons, List.map_nil, List.sum_cons, List.sum_nil, V3.dot, V3.minus]
      ring
  clear h1
  have hT : V3.times (m * d) (V3.times (n : K) e) = V3.times (n * (m * d)) e := by
    simp only [V3.times, V3.mk.injEq]; refine ⟨?_, ?_, ?_⟩ <;> ring
  rw [hT] at h2
  exact drift_alg qm _ e b h hb _ _ _ h1' h2 h3 u w0 w D hu hw0 hw hD

end PyECLOUD
