import Verif.Spec.Converge
import Verif.Lemmas.ConvergeRun
import Verif.Lemmas.ConvergeField
import Mathlib.Analysis.SpecialFunctions.Trigonometric.Deriv

/-! # Property C163: with a shorter time step the tracked orbit approaches the true motion -/

set_option linter.unusedSectionVars false

namespace PyECLOUD

/-- the points within `r` of the orbit, in each coordinate, during the time from 0 to `T` belong to `S` -/
def OrbitInside (S : Set (ℝ × ℝ)) (T r : ℝ) (P : ℝ → Phase ℝ) : Prop :=
  ∀ t ∈ Set.Icc 0 T, ∀ q : ℝ × ℝ, |q.1 - (P t).x| ≤ r → |q.2 - (P t).y| ≤ r → q ∈ S

/-- the region is bounded and, with a magnetic field map, inside the map -/
def BSrc.Covers (src : BSrc ℝ) (S : Set (ℝ × ℝ)) : Prop :=
  (∃ R : ℝ, ∀ q ∈ S, |q.1| ≤ R ∧ |q.2| ≤ R) ∧
  match src with
  | .file nx ny xmin ymin dx dy _ _ _ => 0 < dx ∧ 0 < dy ∧ ∀ q ∈ S, InAxis nx xmin dx q.1 ∧ InAxis ny ymin dy q.2
  | _ => True

/-! ## one electron -/

/-- C163, one electron: let the electron move in fields that are bounded and change at a bounded rate around its orbit. There are
`C` and `h > 0` such that for any number `N` of time steps of length `T/N ≤ h`, and any number of sub-steps, the Boris tracker,
with the electric field taken at the start of each step and the magnetic field at each sub-step, gives at every step a position and
a velocity at most `C · T/N` away from the true ones. -/
theorem C163_boris {S : Set (ℝ × ℝ)} {qm T M L r : ℝ} (hT : 0 ≤ T) (hM : 0 ≤ M) (hL : 0 ≤ L) (hr : 0 < r) {E : ℝ → ℝ → ℝ → V3 ℝ}
    {B : ℝ → ℝ → V3 ℝ} (hE : FieldSmooth S T M L E) (hB : FieldSmooth S T M L (fun _ => B)) {P : ℝ → Phase ℝ} (h : LorentzOrbit qm T E B P)
    (hP : OrbitInside S T r P) :
    ∃ C h0 : ℝ, 0 < h0 ∧ ∀ (N nSub : ℕ), 0 < N → 0 < nSub → T / N ≤ h0 → ∀ p : ℕ → Phase ℝ, p 0 = P 0 →
      (∀ k < N, p (k + 1) = borisSub qm (T / N / nSub) (E (k * (T / N)) (p k).x (p k).y) B nSub (p k)) →
      ∀ k ≤ N, (p k).Near (P (k * (T / N))) (C * (T / N)) := by
  obtain ⟨C, _, h0, hh0, hrun⟩ := run_margin hT hM hL hr hE hB h hP
  refine ⟨C, h0, hh0, fun N nSub hN hn hdt p hp0 hp k hk => ?_⟩
  have hNR : (0 : ℝ) < N := by exact_mod_cast hN
  have hnR : (0 : ℝ) < nSub := by exact_mod_cast hn
  have hdt0 : 0 ≤ T / N := by positivity
  obtain ⟨q, hq, hqk⟩ := chains_run qm (T / N) nSub hn hdt0 E B N p (fun k hk => by rw [hp k hk]; exact borisSub_chain qm _ _ B nSub _)
  have e := hrun (N * nSub) (T / N / nSub) (T / N) q (by positivity) (div_le_self hdt0 (by exact_mod_cast hn)) hdt
    (by push_cast; apply le_of_eq; field_simp) hq (by have := hqk 0 (Nat.zero_le _); rw [Nat.zero_mul] at this; rw [this, hp0])
    (k * nSub) (Nat.mul_le_mul_right _ hk)
  rw [hqk k hk] at e
  have e2 : ((k * nSub : ℕ) : ℝ) * (T / N / nSub) = k * (T / N) := by push_cast; field_simp
  rw [e2] at e
  exact e

/-! ## the particles of a cloud -/

theorem C163_motion {S : Set (ℝ × ℝ)} {qm T M L r : ℝ} (hT : 0 ≤ T) (hM : 0 ≤ M) (hL : 0 ≤ L) (hr : 0 < r)
    (F Bm : ℝ → ℝ → ℝ → ℝ × ℝ) {B : ℝ → ℝ → V3 ℝ}
    (hE : FieldSmooth S T M L (fun t x y => ⟨(F t x y).1 + (Bm t x y).1, (F t x y).2 + (Bm t x y).2, 0⟩))
    (hB : FieldSmooth S T M L (fun _ => B)) {P : ℝ → Phase ℝ}
    (h : LorentzOrbit qm T (fun t x y => ⟨(F t x y).1 + (Bm t x y).1, (F t x y).2 + (Bm t x y).2, 0⟩) B P)
    (hP : OrbitInside S T r P) {G : Type} [AddCommGroup G] (i : ℕ) :
    ∃ c h0 : ℝ, 0 < h0 ∧ ∀ (N nSub : ℕ), 0 < N → 0 < nSub → T / N ≤ h0 →
      ∀ (C : CplCfg ℝ G) (inp : ℕ → CplIn ℝ) (ms : ℕ → MPs ℝ), SubBoris (C.tr i) qm B → (C.tr i).nSub = some nSub → (C.tr i).dt = T / N →
      C.unifDt = true → (∀ k < N, (inp k).custom = none ∧ (inp k).kick = false ∧ (inp k).beam = Bm (k * (T / N)) ∧
        cplMotion C (inp k) (F (k * (T / N))) i (ms k) = .ok (ms (k + 1))) →
      ∀ j < (ms 0).nmp, (ms 0).phase j = P 0 → ∀ k ≤ N, ((ms k).phase j).Near (P (k * (T / N))) (c * (T / N)) := by
  obtain ⟨c, _, h0, hh0, hrun⟩ := run_margin hT hM hL hr hE hB h hP
  refine ⟨c, h0, hh0, fun N nSub hN hn hdt C inp ms ht htn htd hu hs j hj hj0 k hk => ?_⟩
  have hNR : (0 : ℝ) < N := by exact_mod_cast hN
  have hnR : (0 : ℝ) < nSub := by exact_mod_cast hn
  have hdt0 : 0 ≤ T / N := by positivity
  have hst : ∀ k < N, (ms (k + 1)).nmp = (ms k).nmp ∧ ∀ j < (ms k).nmp, SubChain qm (T / N / nSub)
      (sumField (F (k * (T / N))) (some (Bm (k * (T / N))))) B nSub ((ms k).phase j) ((ms (k + 1)).phase j) := by
    intro k hk
    obtain ⟨h1, h2, h3, h4⟩ := hs k hk
    have := cplMotion_chain C (inp k) (F (k * (T / N))) i qm nSub B ht htn hu h1 h2 (ms k) (ms (k + 1)) h4
    rw [htd, h3] at this
    exact this
  have hnmp : ∀ k ≤ N, (ms k).nmp = (ms 0).nmp := by
    intro k
    induction k with
    | zero => intro _; rfl
    | succ k ih => intro hk; rw [(hst k (by omega)).1, ih (by omega)]
  obtain ⟨q, hq, hqk⟩ := chains_run qm (T / N) nSub hn hdt0 (fun t x y => ⟨(F t x y).1 + (Bm t x y).1, (F t x y).2 + (Bm t x y).2, 0⟩) B N
    (fun k => (ms k).phase j) (fun k hk => (hst k hk).2 j (by rw [hnmp k hk.le]; exact hj))
  have e := hrun (N * nSub) (T / N / nSub) (T / N) q (by positivity) (div_le_self hdt0 (by exact_mod_cast hn)) hdt
    (by push_cast; apply le_of_eq; field_simp) hq (by have := hqk 0 (Nat.zero_le _); rw [Nat.zero_mul] at this; rw [this, hj0])
    (k * nSub) (Nat.mul_le_mul_right _ hk)
  rw [hqk k hk] at e
  have e2 : ((k * nSub : ℕ) : ℝ) * (T / N / nSub) = k * (T / N) := by push_cast; field_simp
  rw [e2] at e
  exact e

/-- C163, the magnetic fields of the trackers and interpolated fields meet the conditions: no field, a quadrupole and a map from a
file on any region covered, multipoles of any order on any bounded region, and fields interpolated from a grid inside the grid. -/
theorem C163_fields (S : Set (ℝ × ℝ)) (T : ℝ) :
    (∀ (src : BSrc ℝ) (b0 : V3 ℝ), src.Covers S → ∃ M L : ℝ, 0 ≤ M ∧ 0 ≤ L ∧ FieldSmooth S T M L (fun _ => src.getB b0)) ∧
    (∀ (bf bs : List ℝ) (c : Option (V3 ℝ)), (∃ R : ℝ, ∀ q ∈ S, |q.1| ≤ R ∧ |q.2| ≤ R) →
      ∃ M L : ℝ, 0 ≤ M ∧ 0 ≤ L ∧ FieldSmooth S T M L (fun _ => multipoleField bf bs c)) ∧
    (∀ (nx ny : ℕ) (bx yb dx dy : ℝ) (fx fy : ℕ → ℕ → ℝ), 0 < dx → 0 < dy → (∀ q ∈ S, InAxis nx bx dx q.1 ∧ InAxis ny yb dy q.2) →
      ∃ M L : ℝ, 0 ≤ M ∧ 0 ≤ L ∧
        FieldSmooth S T M L (fun _ x y => ⟨intField nx ny bx yb dx dy fx x y, intField nx ny bx yb dx dy fy x y, 0⟩)) := by
  refine ⟨fun src b0 hc => ?_, fun bf bs c ⟨R, hR⟩ => ?_, fun nx ny bx yb dx dy fx fy hdx hdy hS => ?_⟩
  · obtain ⟨⟨R, hR⟩, hc⟩ := hc
    have hx := BoundedRate.fst (S := S) (fun q hq => (hR q hq).1)
    have hy := BoundedRate.snd (S := S) (fun q hq => (hR q hq).2)
    cases src with
    | none =>
      exact BoundedRate.smooth T _ (((BoundedRate.const 0).mul hx).add (BoundedRate.const _)) (((BoundedRate.const 0).mul hx).add (BoundedRate.const _))
        (((BoundedRate.const 0).mul hx).add (BoundedRate.const _))
    | quad f =>
      exact BoundedRate.smooth T _ (((BoundedRate.const f).mul hy).add (BoundedRate.const _)) (((BoundedRate.const f).mul hx).add (BoundedRate.const _))
        (((BoundedRate.const 0).mul hx).add (BoundedRate.const _))
    | file nx ny xmin ymin dx dy bx yb bz =>
      obtain ⟨hdx, hdy, hS⟩ := hc
      refine BoundedRate.smooth T _ ((intField_rate nx ny xmin ymin dx dy hdx hdy bx hS).add (BoundedRate.const _))
        ((intField_rate nx ny xmin ymin dx dy hdx hdy yb hS).add (BoundedRate.const _)) ?_
      cases bz with
      | none => exact ((BoundedRate.const 0).mul hx).add (BoundedRate.const _)
      | some m => exact (intField_rate nx ny xmin ymin dx dy hdx hdy m hS).add (BoundedRate.const _)
  · have hx := BoundedRate.fst (S := S) (fun q hq => (hR q hq).1)
    have hy := BoundedRate.snd (S := S) (fun q hq => (hR q hq).2)
    obtain ⟨h1, h2⟩ := multipoleLoop_rate hx hy ((bf.drop 1).zip (bs.drop 1)) (fun _ => 1) (fun _ => 0) (fun _ => bs.getD 0 0) (fun _ => bf.getD 0 0)
      (BoundedRate.const _) (BoundedRate.const _) (BoundedRate.const _) (BoundedRate.const _)
    cases c with
    | none => exact BoundedRate.smooth T _ h1 h2 (BoundedRate.const _)
    | some c => exact BoundedRate.smooth T _ (h1.add (BoundedRate.const _)) (h2.add (BoundedRate.const _)) (BoundedRate.const _)
  · exact BoundedRate.smooth T _ (intField_rate nx ny bx yb dx dy hdx hdy fx hS) (intField_rate nx ny bx yb dx dy hdx hdy fy hS) (BoundedRate.const _)

/-- C163, the particles of a cloud: let `F t x y` and `Bm t x y` be the fields of the clouds and of the beams, let their sum be bounded
and change at a bounded rate around the orbit `P`, which stays in the region covered by the magnetic field. There are `c` and `h > 0`
such that with the Boris tracker, any number of steps of length `T/N ≤ h`, any number of sub-steps, and the electric field kept or
interpolated again during the sub-steps, every particle of the cloud that starts in the state `P 0` is, after each motion of the cloud,
at most `c · T/N` away from the orbit in each coordinate and each velocity component. -/
theorem C163_cloud {S : Set (ℝ × ℝ)} {qm T M L r : ℝ} (hT : 0 ≤ T) (hM : 0 ≤ M) (hL : 0 ≤ L) (hr : 0 < r)
    (F Bm : ℝ → ℝ → ℝ → ℝ × ℝ) (src : BSrc ℝ) (b0 : V3 ℝ) (hsrc : src.Covers S)
    (hE : FieldSmooth S T M L (fun t x y => ⟨(F t x y).1 + (Bm t x y).1, (F t x y).2 + (Bm t x y).2, 0⟩)) {P : ℝ → Phase ℝ}
    (h : LorentzOrbit qm T (fun t x y => ⟨(F t x y).1 + (Bm t x y).1, (F t x y).2 + (Bm t x y).2, 0⟩) (src.getB b0) P)
    (hP : OrbitInside S T r P) {G : Type} [AddCommGroup G] (i : ℕ) :
    ∃ c h0 : ℝ, 0 < h0 ∧ ∀ (N nSub : ℕ), 0 < N → 0 < nSub → T / N ≤ h0 →
      ∀ (C : CplCfg ℝ G) (inp : ℕ → CplIn ℝ) (ms : ℕ → MPs ℝ), C.tr i = borisObj src b0 qm (T / N) nSub → C.unifDt = true →
      (∀ k < N, (inp k).custom = none ∧ (inp k).kick = false ∧ (inp k).beam = Bm (k * (T / N)) ∧
        cplMotion C (inp k) (F (k * (T / N))) i (ms k) = .ok (ms (k + 1))) →
      ∀ j < (ms 0).nmp, (ms 0).phase j = P 0 → ∀ k ≤ N, ((ms k).phase j).Near (P (k * (T / N))) (c * (T / N)) := by
  obtain ⟨M', L', hM', hL', hB⟩ := (C163_fields S T).1 src b0 hsrc
  obtain ⟨c, h0, hh0, hrun⟩ := C163_motion hT (add_nonneg hM hM') (add_nonneg hL hL') hr F Bm (hE.mono (by linarith) (by linarith))
    (hB.mono (by linarith) (by linarith)) h hP (G := G) i
  refine ⟨c, h0, hh0, fun N nSub hN hn hdt C inp ms ht hu hs => ?_⟩
  exact hrun N nSub hN hn hdt C inp ms (by rw [ht]; exact borisObj_sub src b0 qm _ nSub) (by rw [ht]; rfl) (by rw [ht]; rfl) hu hs

/-- C163, the same with the multipole tracker. -/
theorem C163_cloud_multipole {S : Set (ℝ × ℝ)} {qm T M L r R : ℝ} (hT : 0 ≤ T) (hM : 0 ≤ M) (hL : 0 ≤ L) (hr : 0 < r)
    (F Bm : ℝ → ℝ → ℝ → ℝ × ℝ) (bf bs : List ℝ) (b0x b0y b0z : Option ℝ) (hS : ∀ q ∈ S, |q.1| ≤ R ∧ |q.2| ≤ R)
    (hE : FieldSmooth S T M L (fun t x y => ⟨(F t x y).1 + (Bm t x y).1, (F t x y).2 + (Bm t x y).2, 0⟩)) {P : ℝ → Phase ℝ}
    (h : LorentzOrbit qm T (fun t x y => ⟨(F t x y).1 + (Bm t x y).1, (F t x y).2 + (Bm t x y).2, 0⟩)
      (multipoleField bf bs (some ⟨b0x.getD 0, b0y.getD 0, b0z.getD 0⟩)) P)
    (hP : OrbitInside S T r P) {G : Type} [AddCommGroup G] (i : ℕ) :
    ∃ c h0 : ℝ, 0 < h0 ∧ ∀ (N nSub : ℕ), 0 < N → 0 < nSub → T / N ≤ h0 →
      ∀ (C : CplCfg ℝ G) (inp : ℕ → CplIn ℝ) (ms : ℕ → MPs ℝ), C.tr i = multipoleObj bf bs b0x b0y b0z qm (T / N) nSub → C.unifDt = true →
      (∀ k < N, (inp k).custom = none ∧ (inp k).kick = false ∧ (inp k).beam = Bm (k * (T / N)) ∧
        cplMotion C (inp k) (F (k * (T / N))) i (ms k) = .ok (ms (k + 1))) →
      ∀ j < (ms 0).nmp, (ms 0).phase j = P 0 → ∀ k ≤ N, ((ms k).phase j).Near (P (k * (T / N))) (c * (T / N)) := by
  obtain ⟨M', L', hM', hL', hB⟩ := (C163_fields S T).2.1 bf bs (some ⟨b0x.getD 0, b0y.getD 0, b0z.getD 0⟩) ⟨R, hS⟩
  obtain ⟨c, h0, hh0, hrun⟩ := C163_motion hT (add_nonneg hM hM') (add_nonneg hL hL') hr F Bm (hE.mono (by linarith) (by linarith))
    (hB.mono (by linarith) (by linarith)) h hP (G := G) i
  refine ⟨c, h0, hh0, fun N nSub hN hn hdt C inp ms ht hu hs => ?_⟩
  exact hrun N nSub hN hn hdt C inp ms (by rw [ht]; exact multipoleObj_sub bf bs b0x b0y b0z qm _ nSub) (by rw [ht]; rfl) (by rw [ht]; rfl) hu hs

/-! ## the order is one -/

/-- C163, the error is of first order and no better: an electron starting at rest in a uniform electric field is, after `N` steps
of length `T/N` with `nSub` sub-steps, ahead of the true position by exactly the acceleration times `T` times half a sub-step; its
velocity is exact. -/
theorem C163_first_order (qm T e : ℝ) (N nSub : ℕ) (hN : 0 < N) (hn : 0 < nSub) (p : ℕ → Phase ℝ) (h0 : p 0 = ⟨0, 0, 0, 0, 0, 0⟩)
    (hp : ∀ k < N, p (k + 1) = borisSub qm (T / N / nSub) ⟨e, 0, 0⟩ (fun _ _ => ⟨0, 0, 0⟩) nSub (p k)) :
    (p N).x - qm * e * T ^ 2 / 2 = qm * e * T * (T / N / nSub) / 2 ∧ (p N).vx = qm * e * T := by
  have hNR : (N : ℝ) ≠ 0 := by exact_mod_cast hN.ne'
  have hnR : (nSub : ℝ) ≠ 0 := by exact_mod_cast hn.ne'
  obtain ⟨d, hd⟩ : ∃ d, T / N / nSub = d := ⟨_, rfl⟩
  rw [hd] at hp ⊢
  have hTd : T = N * nSub * d := by rw [← hd]; field_simp
  have hsub : ∀ (n m : ℕ) (q : Phase ℝ), q.x = qm * e * d ^ 2 * (m * (m + 1)) / 2 → q.vx = qm * e * (m * d) →
      (borisSub qm d ⟨e, 0, 0⟩ (fun _ _ => ⟨0, 0, 0⟩) n q).x = qm * e * d ^ 2 * (((m + n : ℕ) : ℝ) * ((m + n : ℕ) + 1)) / 2 ∧
      (borisSub qm d ⟨e, 0, 0⟩ (fun _ _ => ⟨0, 0, 0⟩) n q).vx = qm * e * (((m + n : ℕ) : ℝ) * d) := by
    intro n
    induction n with
    | zero => intro m q h1 h2; exact ⟨h1, h2⟩
    | succ n ih =>
      intro m q h1 h2
      have := ih (m + 1) (borisKick qm d ⟨e, 0, 0⟩ ⟨0, 0, 0⟩ q) (by simp [borisKick, h1, h2]; ring) (by simp [borisKick, h2]; ring)
      rw [show m + 1 + n = m + (n + 1) by ring] at this
      exact this
  have hk : ∀ k ≤ N, (p k).x = qm * e * d ^ 2 * (((k * nSub : ℕ) : ℝ) * ((k * nSub : ℕ) + 1)) / 2 ∧ (p k).vx = qm * e * (((k * nSub : ℕ) : ℝ) * d) := by
    intro k
    induction k with
    | zero => intro _; rw [h0]; simp
    | succ k ih =>
      intro hk
      obtain ⟨a, b⟩ := ih (by omega)
      rw [hp k (by omega), show (k + 1) * nSub = k * nSub + nSub by ring]
      exact hsub nSub (k * nSub) (p k) a b
  obtain ⟨a, b⟩ := hk N (le_refl _)
  rw [a, b, hTd]
  push_cast
  constructor <;> ring

/-! ## the conditions can be met -/

/-- an electron on a circle in a uniform longitudinal magnetic field, over any time -/
example (T : ℝ) :
    LorentzOrbit 1 T (fun _ _ _ => ⟨0, 0, 0⟩) ((BSrc.none : BSrc ℝ).getB ⟨0, 0, 1⟩) (fun t => ⟨Real.sin t, Real.cos t, 0, Real.cos t, -Real.sin t, 0⟩) ∧
    FieldSmooth (Set.univ : Set (ℝ × ℝ)) T 0 0 (fun _ _ _ => ⟨0, 0, 0⟩) ∧
    OrbitInside {q | |q.1| ≤ 3 ∧ |q.2| ≤ 3} T 1 (fun t => ⟨Real.sin t, Real.cos t, 0, Real.cos t, -Real.sin t, 0⟩) ∧
    (BSrc.none : BSrc ℝ).Covers {q | |q.1| ≤ 3 ∧ |q.2| ≤ 3} := by
  refine ⟨⟨fun t _ => Real.hasDerivAt_sin t, fun t _ => Real.hasDerivAt_cos t, fun t _ => hasDerivAt_const t 0, fun t _ => ?_, fun t _ => ?_,
    fun t _ => ?_⟩, ⟨fun _ _ _ _ => by simp [V3.Within], fun _ _ _ _ _ _ _ _ => by simp [V3.Within, V3.diff]⟩, fun t _ q h1 h2 => ?_, ⟨3, fun q hq => hq⟩, trivial⟩
  · simpa [BSrc.getB] using Real.hasDerivAt_cos t
  · have : HasDerivAt (fun t => -Real.sin t) (-Real.cos t) t := (Real.hasDerivAt_sin t).neg
    simpa [BSrc.getB] using this
  · simpa [BSrc.getB] using hasDerivAt_const t (0 : ℝ)
  · have a1 := Real.abs_sin_le_one t
    have a2 := Real.abs_cos_le_one t
    simp only at h1 h2
    constructor
    · have := abs_add_le (q.1 - Real.sin t) (Real.sin t); rw [sub_add_cancel] at this; linarith
    · have := abs_add_le (q.2 - Real.cos t) (Real.cos t); rw [sub_add_cancel] at this; linarith

/-- the motion of a cloud with such a tracker succeeds, so that there is a sequence of clouds as in the theorem -/
example {G : Type} [AddCommGroup G] (C0 : CplCfg ℝ G) (inp : CplIn ℝ) (hc : inp.custom = none) (hk : inp.kick = false) (s : MPs ℝ)
    (F : ℝ → ℝ → ℝ → ℝ × ℝ) (b : Bool) :
    let C : CplCfg ℝ G := { C0 with tr := fun _ => borisObj .none ⟨0, 0, 1⟩ 1 (1 / 10) 3, unifDt := true, reinterp := b }
    ∃ ms : ℕ → MPs ℝ, ms 0 = s ∧ ∀ k : ℕ, cplMotion C inp (F (k * (1 / 10))) 0 (ms k) = .ok (ms (k + 1)) := by
  intro C
  have hl : ∀ (field : ℝ → ℝ → ℝ × ℝ) (m n : ℕ) (d : ℝ) (s : MPs ℝ), ∃ s',
      motionLoop (C.tr 0) (cloudFields field) (some (beamFields inp.beam)) m (some d) n s = .ok s' := by
    intro field m n d
    induction n with
    | zero => intro s; exact ⟨s, rfl⟩
    | succ n ih => intro s; exact ih _
  have h : ∀ (field : ℝ → ℝ → ℝ × ℝ) (s : MPs ℝ), ∃ s', cplMotion C inp field 0 s = .ok s' := by
    intro field s
    unfold cplMotion cloudMotion
    rw [hc, hk]
    cases hr : (C.reinterp || inp.reinterp) with
    | true => exact hl field 1 3 _ s
    | false => exact hl field 3 1 _ s
  choose g hg using h
  exact ⟨fun k => Nat.rec s (fun k m => g (F (k * (1 / 10))) m) k, rfl, fun k => hg _ _⟩

end PyECLOUD
