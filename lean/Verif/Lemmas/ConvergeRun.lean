import Verif.Lemmas.Converge
import Verif.Lemmas.LiouvilleRun
import Verif.Props.Coupled

/-! # The tracked orbit of a particle of a cloud -/

set_option linter.unusedSectionVars false

namespace PyECLOUD

theorem near_of_norm (p q : Phase ℝ) (c : ℝ) (h : ‖(ofPhase p).1 - (ofPhase q).1‖ + ‖(ofPhase p).2 - (ofPhase q).2‖ ≤ c) : p.Near q c := by
  have h1 : ∀ i, |(ofPhase p).1 i - (ofPhase q).1 i| ≤ c := fun i => by
    have := norm_le_pi_norm ((ofPhase p).1 - (ofPhase q).1) i
    rw [Real.norm_eq_abs] at this
    have h2 := norm_nonneg ((ofPhase p).2 - (ofPhase q).2)
    simp only [Pi.sub_apply] at this
    linarith
  have h2 : ∀ i, |(ofPhase p).2 i - (ofPhase q).2 i| ≤ c := fun i => by
    have := norm_le_pi_norm ((ofPhase p).2 - (ofPhase q).2) i
    rw [Real.norm_eq_abs] at this
    have h2 := norm_nonneg ((ofPhase p).1 - (ofPhase q).1)
    simp only [Pi.sub_apply] at this
    linarith
  exact ⟨h1 0, h1 1, h1 2, h2 0, h2 1, h2 2⟩

theorem BorisRun.mono {qm d H : ℝ} {E : ℝ → ℝ → ℝ → V3 ℝ} {B : ℝ → ℝ → V3 ℝ} {n m : ℕ} {p : ℕ → Phase ℝ} (h : BorisRun qm d H E B n p)
    (hm : m ≤ n) : BorisRun qm d H E B m p := ⟨fun j hj => h.step j (by omega)⟩

/-- The sub-steps follow the true orbit; no condition on where the sub-steps go, only that the fields are smooth around the orbit. -/
theorem run_margin {S : Set (ℝ × ℝ)} {qm T M L r : ℝ} (hT0 : 0 ≤ T) (hM : 0 ≤ M) (hL : 0 ≤ L) (hr : 0 < r) {E : ℝ → ℝ → ℝ → V3 ℝ}
    {B : ℝ → ℝ → V3 ℝ} (hE : FieldSmooth S T M L E) (hB : FieldSmooth S T M L (fun _ => B)) {P : ℝ → Phase ℝ} (h : LorentzOrbit qm T E B P)
    (hP : ∀ t ∈ Set.Icc 0 T, ∀ q : ℝ × ℝ, |q.1 - (P t).x| ≤ r → |q.2 - (P t).y| ≤ r → q ∈ S) :
    ∃ C : ℝ, 0 ≤ C ∧ ∃ h0 : ℝ, 0 < h0 ∧ ∀ (n : ℕ) (d H : ℝ) (p : ℕ → Phase ℝ), 0 ≤ d → d ≤ H → H ≤ h0 → n * d ≤ T →
      BorisRun qm d H E B n p → p 0 = P 0 → ∀ j ≤ n, (p j).Near (P (j * d)) (C * H) := by
  obtain ⟨C, hC, hrun⟩ := run_converges hT0 hM hL hE hB h (fun t ht => hP t ht _ (by simp [hr.le]) (by simp [hr.le]))
  refine ⟨C, hC, r / (C + 1), by positivity, ?_⟩
  intro n d H p hd hdH hH hT hb h0
  have hH0 : 0 ≤ H := hd.trans hdH
  have hCr : C * H ≤ r := by
    have h1 : H * (C + 1) ≤ r := (le_div_iff₀ (by positivity)).1 hH
    nlinarith
  have hmd : ∀ m : ℕ, m ≤ n → (m : ℝ) * d ≤ T := fun m hm => le_trans (mul_le_mul_of_nonneg_right (by exact_mod_cast hm) hd) hT
  have hS : ∀ m ≤ n, ∀ j < m, ((p j).x, (p j).y) ∈ S := by
    intro m
    induction m with
    | zero => intro _ j hj; omega
    | succ m ih =>
      intro hm j hj
      rcases Nat.lt_succ_iff_lt_or_eq.1 hj with h1 | h1
      · exact ih (by omega) j h1
      · subst h1
        have h2 := near_of_norm _ _ _ (hrun j d H p hd hdH (hmd j (by omega)) (hb.mono (by omega)) (ih (by omega)) h0 j (le_refl _))
        exact hP (j * d) ⟨by positivity, hmd j (by omega)⟩ _ (h2.1.trans hCr) (h2.2.1.trans hCr)
  intro j hj
  exact near_of_norm _ _ _ (hrun n d H p hd hdH hT hb (hS n (le_refl _)) h0 j hj)

/-! ## one motion of a cloud as a chain of sub-steps -/

/-- a tracker whose internal sub-steps are Boris steps with the electric field kept and a magnetic field given by the position -/
def SubBoris (tr : TrackerObj ℝ) (qm : ℝ) (B : ℝ → ℝ → V3 ℝ) : Prop :=
  ∀ (s : MPs ℝ) (f : Fields ℝ) (d : ℝ) (n : ℕ) (s' : MPs ℝ), (∀ k : ℕ, (f.at k).2.2 = (0, 0, 0)) → tr.stepCustom s f d n = .ok s' →
    s' = s.push (fun k p => borisSub qm d ⟨(f.at k).1, (f.at k).2.1, 0⟩ B n p)

theorem borisObj_sub (src : BSrc ℝ) (b0 : V3 ℝ) (qm dt : ℝ) (nSub : ℕ) : SubBoris (borisObj src b0 qm dt nSub) qm (src.getB b0) := by
  intro s f d n s' _ h
  cases h
  unfold borisCustomDt
  apply push_congr
  intro k hk
  rfl

theorem multipoleObj_sub (bf bs : List ℝ) (b0x b0y b0z : Option ℝ) (qm dt : ℝ) (nSub : ℕ) :
    SubBoris (multipoleObj bf bs b0x b0y b0z qm dt nSub) qm (multipoleField bf bs (some ⟨b0x.getD 0, b0y.getD 0, b0z.getD 0⟩)) := by
  intro s f d n s' hf h
  simp only [multipoleObj, multipoleCustomDt, ne_eq, not_true_eq_false, and_false, if_false] at h
  cases h
  apply push_congr
  intro k hk
  have h0 := hf k
  simp only [Fields.at, Prod.mk.injEq] at h0
  obtain ⟨h1, h2, h3⟩ := h0
  simp only [CustomB.at, Option.isSome_some, Bool.or_true, if_true, Option.map_some, Option.getD_some, h1, h2, h3, add_zero]
  rfl

/-- a chain of `n` sub-steps from `p` to `p'`: each uses the field `E` at the start of an earlier sub-step of the chain -/
def SubChain (qm d : ℝ) (E B : ℝ → ℝ → V3 ℝ) (n : ℕ) (p p' : Phase ℝ) : Prop :=
  ∃ q : ℕ → Phase ℝ, q 0 = p ∧ q n = p' ∧ ∀ l < n, ∃ l' ≤ l, q (l + 1) = borisKick qm d (E (q l').x (q l').y) (B (q l).x (q l).y) (q l)

theorem borisSub_iter (qm d : ℝ) (e : V3 ℝ) (B : ℝ → ℝ → V3 ℝ) (n : ℕ) : ∀ p : Phase ℝ,
    borisSub qm d e B (n + 1) p = borisKick qm d e (B (borisSub qm d e B n p).x (borisSub qm d e B n p).y) (borisSub qm d e B n p) := by
  induction n with
  | zero => intro p; rfl
  | succ n ih =>
    intro p
    change borisSub qm d e B (n + 1) (borisKick qm d e (B p.x p.y) p) = _
    rw [ih]
    rfl

theorem borisSub_chain (qm d : ℝ) (E B : ℝ → ℝ → V3 ℝ) (n : ℕ) (p : Phase ℝ) :
    SubChain qm d E B n p (borisSub qm d (E p.x p.y) B n p) :=
  ⟨fun l => borisSub qm d (E p.x p.y) B l p, rfl, rfl, fun l _ => ⟨0, Nat.zero_le _, borisSub_iter qm d _ B l p⟩⟩

theorem SubChain.cons {qm d : ℝ} {E B : ℝ → ℝ → V3 ℝ} {n : ℕ} {p p' : Phase ℝ}
    (h : SubChain qm d E B n (borisKick qm d (E p.x p.y) (B p.x p.y) p) p') : SubChain qm d E B (n + 1) p p' := by
  obtain ⟨q, h0, h1, h2⟩ := h
  refine ⟨fun l => match l with | 0 => p | l + 1 => q l, rfl, h1, fun l hl => ?_⟩
  cases l with
  | zero => exact ⟨0, le_refl _, h0⟩
  | succ l =>
    obtain ⟨l', hl', e⟩ := h2 l (by omega)
    exact ⟨l' + 1, by omega, e⟩

/-- the electric field at a position: that of the clouds and that of the beams -/
def sumField (field : ℝ → ℝ → ℝ × ℝ) (b : Option (ℝ → ℝ → ℝ × ℝ)) (x y : ℝ) : V3 ℝ :=
  ⟨(field x y + ((b.map (fun g => g x y)).getD 0)).1, (field x y + ((b.map (fun g => g x y)).getD 0)).2, 0⟩

theorem motionFields_flat (field : ℝ → ℝ → ℝ × ℝ) (b : Option (ℝ → ℝ → ℝ × ℝ)) (s : MPs ℝ) (k : ℕ) :
    ((motionFields (cloudFields field) (b.map beamFields) s).at k).2.2 = (0, 0, 0) := by
  cases b with
  | none => simp only [motionFields, cloudFields, Fields.at, Option.map_none, one_getD]
  | some g => simp only [motionFields, cloudFields, Fields.addE, Fields.at, Option.map_some, one_getD]

theorem loop_push (tr : TrackerObj ℝ) (qm : ℝ) (B : ℝ → ℝ → V3 ℝ) (ht : SubBoris tr qm B) (field : ℝ → ℝ → ℝ × ℝ)
    (b : Option (ℝ → ℝ → ℝ × ℝ)) (d : ℝ) (m : ℕ) (s s' : MPs ℝ) (h : motionOne tr m (some d) s (motionFields (cloudFields field) (b.map beamFields) s) = .ok s') :
    s' = s.push (fun _ p => borisSub qm d (sumField field b p.x p.y) B m p) := by
  rw [ht _ _ _ _ _ (motionFields_flat field b s) h]
  apply push_congr
  intro k hk
  rw [motionFields_at _ _ _ _ hk]
  rfl

/-- field interpolated again before every sub-step -/
theorem loop_chain (tr : TrackerObj ℝ) (qm : ℝ) (B : ℝ → ℝ → V3 ℝ) (ht : SubBoris tr qm B) (field : ℝ → ℝ → ℝ × ℝ)
    (b : Option (ℝ → ℝ → ℝ × ℝ)) (d : ℝ) (n : ℕ) : ∀ s s' : MPs ℝ,
      motionLoop tr (cloudFields field) (b.map beamFields) 1 (some d) n s = .ok s' →
      s'.nmp = s.nmp ∧ ∀ k < s.nmp, SubChain qm d (sumField field b) B n (s.phase k) (s'.phase k) := by
  induction n with
  | zero =>
    intro s s' h
    cases h
    exact ⟨rfl, fun k _ => ⟨fun _ => s.phase k, rfl, rfl, fun l hl => by omega⟩⟩
  | succ n ih =>
    intro s s' h
    simp only [motionLoop] at h
    split at h
    · cases h
    · next s2 h2 =>
      have e := loop_push tr qm B ht field b d 1 s s2 h2
      subst e
      obtain ⟨h3, h4⟩ := ih _ _ h
      rw [push_nmp] at h3
      refine ⟨h3, fun k hk => SubChain.cons ?_⟩
      have h5 := h4 k (by rw [push_nmp]; exact hk)
      rw [phase_push _ _ _ hk] at h5
      exact h5

/-- One motion of a cloud with uniform time step moves each particle through a chain of sub-steps. -/
theorem cplMotion_chain {G : Type} [AddCommGroup G] (C : CplCfg ℝ G) (inp : CplIn ℝ) (field : ℝ → ℝ → ℝ × ℝ) (i : ℕ) (qm : ℝ) (nSub : ℕ)
    (B : ℝ → ℝ → V3 ℝ) (ht : SubBoris (C.tr i) qm B) (hn : (C.tr i).nSub = some nSub) (hu : C.unifDt = true) (hc : inp.custom = none)
    (hk : inp.kick = false) (s s' : MPs ℝ) (h : cplMotion C inp field i s = .ok s') :
    s'.nmp = s.nmp ∧ ∀ k < s.nmp, SubChain qm ((C.tr i).dt / nSub) (sumField field (some inp.beam)) B nSub (s.phase k) (s'.phase k) := by
  unfold cplMotion cloudMotion at h
  rw [hc, hu, hk] at h
  simp only [substepMode, hn, if_true, substepPlan, Bool.false_eq_true, if_false] at h
  cases hr : (C.reinterp || inp.reinterp) with
  | true =>
    rw [hr] at h
    simp only [if_true] at h
    exact loop_chain (C.tr i) qm B ht field (some inp.beam) _ nSub s s' h
  | false =>
    rw [hr] at h
    simp only [Bool.false_eq_true, if_false, motionLoop] at h
    split at h
    · cases h
    · next s2 h2 =>
      cases h
      have e := loop_push (C.tr i) qm B ht field (some inp.beam) _ nSub s s' h2
      subst e
      refine ⟨push_nmp _ _, fun k hk => ?_⟩
      rw [phase_push _ _ _ hk]
      exact borisSub_chain qm _ _ B nSub _

/-- Chains one after the other make a run. -/
theorem chains_run (qm dt : ℝ) (nSub : ℕ) (h1 : 0 < nSub) (hdt : 0 ≤ dt) (E : ℝ → ℝ → ℝ → V3 ℝ) (B : ℝ → ℝ → V3 ℝ) (N : ℕ) (P : ℕ → Phase ℝ)
    (h : ∀ k < N, SubChain qm (dt / nSub) (E (k * dt)) B nSub (P k) (P (k + 1))) :
    ∃ p : ℕ → Phase ℝ, BorisRun qm (dt / nSub) dt E B (N * nSub) p ∧ ∀ k ≤ N, p (k * nSub) = P k := by
  have h' : ∀ k, ∃ q : ℕ → Phase ℝ, k < N → (q 0 = P k ∧ q nSub = P (k + 1) ∧
      ∀ l < nSub, ∃ l' ≤ l, q (l + 1) = borisKick qm (dt / nSub) (E (k * dt) (q l').x (q l').y) (B (q l).x (q l).y) (q l)) := by
    intro k
    by_cases hk : k < N
    · obtain ⟨q, hq⟩ := h k hk
      exact ⟨q, fun _ => hq⟩
    · exact ⟨fun _ => P k, fun h => absurd h hk⟩
  choose q hq using h'
  have hns : (0 : ℝ) < nSub := by exact_mod_cast h1
  have hns0 : (nSub : ℝ) ≠ 0 := hns.ne'
  have hd0 : 0 ≤ dt / nSub := by positivity
  let p : ℕ → Phase ℝ := fun j => if j < N * nSub then q (j / nSub) (j % nSub) else P N
  have hpk : ∀ k ≤ N, p (k * nSub) = P k := by
    intro k hk
    simp only [p]
    split
    · next hlt =>
      have : k < N := lt_of_mul_lt_mul_right hlt (Nat.zero_le _)
      rw [Nat.mul_div_cancel _ h1, Nat.mul_mod_left]
      exact (hq k this).1
    · next hlt =>
      have : k = N := by
        by_contra hne
        exact hlt (Nat.mul_lt_mul_of_pos_right (by omega) h1)
      rw [this]
  have hpl : ∀ k < N, ∀ l ≤ nSub, p (k * nSub + l) = q k l := by
    intro k hk l hl
    rcases Nat.lt_or_eq_of_le hl with h2 | h2
    · have hlt : k * nSub + l < N * nSub := by
        calc k * nSub + l < k * nSub + nSub := by omega
          _ = (k + 1) * nSub := by ring
          _ ≤ N * nSub := Nat.mul_le_mul_right _ (by omega)
      simp only [p, if_pos hlt]
      rw [mul_comm k nSub, Nat.mul_add_div h1, Nat.mul_add_mod, Nat.div_eq_of_lt h2, Nat.mod_eq_of_lt h2, add_zero]
    · subst h2
      rw [(hq k hk).2.1, ← hpk (k + 1) (by omega)]
      congr 1
      ring
  refine ⟨p, ⟨fun j hj => ?_⟩, hpk⟩
  have hk : j / nSub < N := Nat.div_lt_of_lt_mul (by rw [mul_comm]; exact hj)
  obtain ⟨k, hkd⟩ : ∃ k, j / nSub = k := ⟨_, rfl⟩
  obtain ⟨l, hld⟩ : ∃ l, j % nSub = l := ⟨_, rfl⟩
  have hl : l < nSub := by rw [← hld]; exact Nat.mod_lt _ h1
  have hj' : j = k * nSub + l := by rw [← hkd, ← hld, mul_comm]; exact (Nat.div_add_mod j nSub).symm
  rw [hkd] at hk
  obtain ⟨l', hl', e⟩ := (hq k hk).2.2 l hl
  have hbd : (l : ℝ) * (dt / nSub) ≤ dt := by
    have : (l : ℝ) ≤ nSub := by exact_mod_cast hl.le
    calc (l : ℝ) * (dt / nSub) ≤ nSub * (dt / nSub) := mul_le_mul_of_nonneg_right this hd0
      _ = dt := by field_simp
  refine ⟨k * nSub, by omega, k * nSub + l', by omega, ?_, ?_, ?_⟩
  · rw [hj']; push_cast
    have e1 : ((k : ℝ) * nSub + l - k * nSub) * (dt / nSub) = l * (dt / nSub) := by ring
    rw [e1]; exact hbd
  · rw [hj']; push_cast
    have e1 : ((k : ℝ) * nSub + l - (k * nSub + l')) * (dt / nSub) = l * (dt / nSub) - l' * (dt / nSub) := by ring
    have e2 : 0 ≤ (l' : ℝ) * (dt / nSub) := by positivity
    rw [e1]; linarith
  · have et : ((k * nSub : ℕ) : ℝ) * (dt / nSub) = k * dt := by push_cast; field_simp
    rw [et, hj', add_assoc, hpl k hk (l + 1) (by omega), hpl k hk l' (by omega), hpl k hk l (by omega)]
    exact e

end PyECLOUD
