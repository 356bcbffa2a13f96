import Verif.Lemmas.DistributionRun
import Verif.Props.CloudOrder

/-! # C158: only the distribution of the charge matters -/

set_option linter.unusedSectionVars false

namespace PyECLOUD

variable {K : Type} [Field K] [LinearOrder K] [IsStrictOrderedRing K] [FloorRing K]

/-! ## what has the same distribution of charge -/

/-- **C158 (a).** The order of the macroparticles does not change the distribution. -/
theorem C158_reorder (l l' : List (Particle K)) (h : l.Perm l') : SameCharge l l' := by
  intro q
  unfold weigh
  exact (h.map _).sum_eq

/-- **C158 (b).** Dividing a macroparticle in two with the same position, velocity and history does not change the distribution. -/
theorem C158_divide (l l' : List (Particle K)) (p : Particle K) (a b : K) (h : p .nel = a + b) :
    SameCharge (l ++ p :: l') (l ++ p.set .nel a :: p.set .nel b :: l') := by
  intro q
  unfold weigh
  have h1 : ∀ v, (p.set .nel v).phase = p.phase := by
    intro v
    simp [Particle.set, Particle.phase]
  have h2 : ∀ v, p.set .nel v .tl = p .tl := by
    intro v
    simp [Particle.set]
  have h3 : ∀ v, p.set .nel v .nel = v := by
    intro v
    simp [Particle.set]
  simp only [List.map_append, List.map_cons, List.sum_append, List.sum_cons, h1, h2, h3, h]
  ring

/-- **C158 (c).** Clouds with the same distribution have the same total charge, the same charge in any region and the same sum of any
quantity of position and velocity. -/
theorem C158_totals (l l' : List (Particle K)) (h : SameCharge l l') : (l.map (fun p => p .nel)).sum = (l'.map (fun p => p .nel)).sum ∧
    (∀ R : K → K → Bool, ((l.filter (fun p => R (p .x) (p .y))).map (fun p => p .nel)).sum =
      ((l'.filter (fun p => R (p .x) (p .y))).map (fun p => p .nel)).sum) ∧
    ∀ w : K, (l.map (fun p => p .nel * (w * (p .vx ^ 2 + p .vy ^ 2 + p .vz ^ 2)))).sum =
      (l'.map (fun p => p .nel * (w * (p .vx ^ 2 + p .vy ^ 2 + p .vz ^ 2)))).sum := by
  refine ⟨?_, ?_, ?_⟩
  · have := h (fun _ _ => 1)
    simpa [weigh] using this
  · intro R
    have := h (fun p _ => if R p.x p.y then 1 else 0)
    have e : ∀ l : List (Particle K), ((l.filter (fun p => R (p .x) (p .y))).map (fun p => p .nel)).sum =
        weigh (fun p _ => if R p.x p.y then 1 else 0) l := by
      intro l
      rw [filter_sum]
      unfold weigh
      congr 1
      apply List.map_congr_left
      intro p _
      have hx : p.phase.x = p .x := rfl
      have hy : p.phase.y = p .y := rfl
      simp only [hx, hy]
      split <;> simp
    rw [e, e]
    exact this
  · intro w
    exact h (fun p _ => w * (p.vx ^ 2 + p.vy ^ 2 + p.vz ^ 2))

/-! ## the parts of a simulation that see the distribution only -/

/-- **C158 (d).** With trackers that act on each macroparticle in the fields at its place, there is one map of positions and velocities
that every macroparticle of every cloud follows. -/
theorem C158_motion {G : Type} [AddCommGroup G] (C : CplCfg K G) (inp : CplIn K) (field : K → K → K × K) (i : ℕ) (ht : (C.tr i).Local) :
    ∃ M : Phase K → Phase K, ∀ s s' : MPs K, s.WF → cplMotion C inp field i s = .ok s' →
      s'.live = s.live.map (fun p => p.move (M p.phase)) := by
  obtain ⟨M, hM⟩ := cplMotion_local C inp field i ht
  refine ⟨M, fun s s' hw h => ?_⟩
  rw [hM s s' hw h, live_push_all]
  rfl

/-- **C158 (e).** The Boris tracker is of this kind. -/
theorem C158_boris (src : BSrc K) (b0 : V3 K) (qm dt : K) (n : ℕ) : (borisObj src b0 qm dt n).Local := by
  refine ⟨⟨fun e p => borisSub qm (dt / (n : K)) ⟨e.1, e.2.1, 0⟩ (src.getB b0) n p, ?_⟩, fun d m => ⟨fun e p =>
    borisSub qm d ⟨e.1, e.2.1, 0⟩ (src.getB b0) m p, ?_⟩⟩
  · intro s f s' h
    cases h
    unfold borisStep
    congr 1
  · intro s f s' h
    cases h
    unfold borisCustomDt
    congr 1

/-- **C158 (f).** So are the dipole tracker and the one for strong fields. -/
theorem C158_dipole (qm b dt : ℝ) : (dipoleObj qm b dt).Local :=
  ⟨⟨fun e p => dipoleMove qm b dt ⟨e.1, e.2.1, 0⟩ p, fun s f s' h => by cases h; rfl⟩, fun d m => ⟨fun _ p => p, fun s f s' h => by cases h⟩⟩

theorem C158_strong (src : BSrc ℝ) (b0x b0y qm thr dt : ℝ) : (strongObj src b0x b0y qm thr dt).Local :=
  ⟨⟨fun e p => strongMove qm thr dt ⟨e.1, e.2.1, 0⟩ (src.getB ⟨b0x, b0y, 0⟩ p.x p.y).x (src.getB ⟨b0x, b0y, 0⟩ p.x p.y).y p,
    fun s f s' h => by cases h; rfl⟩, fun d m => ⟨fun _ p => p, fun s f s' h => by cases h⟩⟩

theorem computeRho_sum (nx ny : ℕ) (bx yb dh : K) (hd : 0 < dh) (ps : List (K × K × K)) (i j : ℕ) :
    computeRho nx ny bx yb dh ps i j = (ps.map (fun a => a.2.2 *
      (if InAxis nx bx dh a.1 ∧ InAxis ny yb dh a.2.1 then hat bx dh i a.1 * hat yb dh j a.2.1 else 0))).sum := by
  unfold computeRho
  have : ∀ r : ℕ → ℕ → K, (ps.foldl (fun rho p => rhoStep nx ny bx yb dh rho p.1 p.2.1 p.2.2) r) i j = r i j +
      (ps.map (fun a => a.2.2 *
        (if InAxis nx bx dh a.1 ∧ InAxis ny yb dh a.2.1 then hat bx dh i a.1 * hat yb dh j a.2.1 else 0))).sum := by
    induction ps with
    | nil => intro r; simp
    | cons p ps ih =>
      intro r
      rw [List.foldl_cons, ih, rhoStep_pointwise nx ny bx yb dh hd, List.map_cons, List.sum_cons, ← add_assoc]
      congr 2
      split <;> simp
  rw [this]
  simp

/-- **C158 (g).** The density on a grid depends on the distribution of the charge only. -/
theorem C158_density (nx ny : ℕ) (bx yb dh : K) (hd : 0 < dh) (solve : (ℕ → ℕ → K) → K → K → K × K) :
    (gridPic nx ny bx yb dh solve).ByCharge := by
  intro q l l' h
  funext i j
  change q * computeRho nx ny bx yb dh l i j = q * computeRho nx ny bx yb dh l' i j
  rw [computeRho_sum nx ny bx yb dh hd, computeRho_sum nx ny bx yb dh hd]
  congr 1
  exact h (fun x y => if InAxis nx bx dh x ∧ InAxis ny yb dh y then hat bx dh i x * hat yb dh j y else 0)

/-- **C158 (h).** A perfect absorber emits in proportion to each impact. -/
theorem C158_absorber : SeyByImpact (fun (_ : K) imps => .ok (seyAbsorber imps)) := by
  intro th
  refine ⟨fun _ _ => 0, fun _ => 0, ?_⟩
  intro imps out h
  cases h
  refine ⟨by simp [seyAbsorber], ?_, ?_⟩
  · intro q
    simp [seyAbsorber, Emit.ofImpact, Function.comp_def]
  · simp [seyAbsorber]

theorem maskPut_byFlag {α β : Type} (l : List α) (P : α → Bool) (f g : α → β) :
    maskPut (l.map f) (l.map P) ((l.filter P).map g) = l.map (fun a => if P a then g a else f a) := by
  induction l with
  | nil => rfl
  | cons a l ih =>
    by_cases hp : P a = true
    · rw [List.filter_cons_of_pos hp]
      simp [maskPut, hp, ih]
    · have hp : P a = false := by simpa using hp
      rw [List.filter_cons_of_neg (by simp [hp])]
      simp [maskPut, hp, ih]

theorem npRepeat_bind {α β : Type} (l : List α) (f : α → β) (n : α → ℕ) :
    npRepeat (l.map f) (l.map n) = l.flatMap (fun a => List.replicate (n a) (f a)) := by
  induction l with
  | nil => rfl
  | cons a l ih => simp [npRepeat, ih]

theorem flatMap_sum {α : Type} (l : List α) (n : α → ℕ) (g : α → K) :
    ((l.flatMap (fun a => List.replicate (n a) (g a)))).sum = (l.map (fun a => (n a : K) * g a)).sum := by
  induction l with
  | nil => rfl
  | cons a l ih => simp [ih]

/-- what the surface emits for one event, when energy and direction are functions of the impact -/
def emitAll (th : K) (eg : K → K) (dir : K → K → K → K × K × K) (evs : List (Impact K × K × Bool)) : List (Emit K) × List (Emit K) :=
  (evs.map (fun e => if e.2.2 then baseReplace th e.1 e.2.1 e.2.2 else
      (baseReplace th e.1 e.2.1 e.2.2).setV (dir (eg e.1.en) e.1.nx e.1.ny)),
   evs.flatMap (fun e => List.replicate (nAdd th e.2.1 e.2.2)
      ((Emit.ofImpact e.1 (baseReplace th e.1 e.2.1 e.2.2).nel).setV (dir (eg e.1.en) e.1.nx e.1.ny))))

theorem zip_map_same {α β γ : Type} (l : List α) (f : α → β) (g : α → γ) : (l.map f).zip (l.map g) = l.map (fun a => (f a, g a)) := by
  rw [List.zip_map']

theorem mapIdx_const {α β : Type} (l : List α) (f : α → β) : l.mapIdx (fun _ a => f a) = l.map f := by
  apply List.ext_getElem <;> simp

theorem seyECLOUD_det (eg : K → K) (dir : K → K → K → K × K × K) (th : K) (evs : List (Impact K × K × Bool)) (out : SeyOut K)
    (h : seyECLOUD (fun l => .ok (l.map eg)) (fun l => .ok (l.map eg)) (fun _ => dir) (fun _ => dir) th evs = .ok out) :
    out.nelEmit = evs.map (fun e => e.2.1) ∧ out.replace = (emitAll th eg dir evs).1 ∧ out.new = (emitAll th eg dir evs).2 := by
  unfold seyECLOUD at h
  simp only at h
  by_cases h0 : countTrue (evs.map (fun e => !e.2.2)) = 0
  · rw [if_pos h0] at h
    cases h
    have hall : ∀ e ∈ evs, e.2.2 = true := by
      intro e he
      unfold countTrue at h0
      rw [List.count_eq_zero] at h0
      by_contra hc
      exact h0 (List.mem_map.2 ⟨e, he, by simpa using hc⟩)
    refine ⟨rfl, ?_, ?_⟩
    · apply List.map_congr_left
      intro e he
      rw [if_pos (hall e he)]
    · symm
      change evs.flatMap _ = []
      rw [List.flatMap_eq_nil_iff]
      intro e he
      simp [nAdd, hall e he]
  · rw [if_neg h0] at h
    have hvel : ∀ l : List (Impact K), (l.zip (l.map (fun i => eg i.en))).mapIdx (fun _ q => dir q.2 q.1.nx q.1.ny) =
        l.map (fun i => dir (eg i.en) i.nx i.ny) := by
      intro l
      rw [mapIdx_const]
      have := zip_map_same l id (fun i => eg i.en)
      rw [List.map_id] at this
      rw [this, List.map_map]
      rfl
    have hsel : maskSel ((evs.map (fun e => e.1)).map (fun i => i.en)) (evs.map (fun e => !e.2.2)) =
        (evs.filter (fun e => !e.2.2)).map (fun e => e.1.en) := by
      rw [List.map_map, maskSel_map_filter]
      rfl
    rw [hsel, maskSel_map_filter, maskSel_map_filter] at h
    have e1 : (List.map (fun e : Impact K × K × Bool => e.1) (evs.filter (fun e => !e.2.2))).zip
        (((evs.filter (fun e => !e.2.2)).map (fun e => e.1.en)).map eg) =
        (evs.filter (fun e => !e.2.2)).map (fun e => (e.1, eg e.1.en)) := by
      rw [List.map_map, zip_map_same]
      rfl
    have e2 : maskPut (evs.map (fun e => baseReplace th e.1 e.2.1 e.2.2)) (evs.map (fun e => !e.2.2))
        (((List.map (fun e => baseReplace th e.1 e.2.1 e.2.2) (evs.filter (fun e => !e.2.2))).zip
          (((evs.filter (fun e => !e.2.2)).map (fun e => (e.1, eg e.1.en))).mapIdx (fun _ q => dir q.2 q.1.nx q.1.ny))).map
            (fun q => q.1.setV q.2)) = (emitAll th eg dir evs).1 := by
      rw [mapIdx_const, List.map_map, zip_map_same, List.map_map, maskPut_byFlag]
      apply List.map_congr_left
      rintro ⟨i, n, b⟩ _
      cases b <;> rfl
    rw [e1, e2] at h
    by_cases hn : (evs.map (fun e => nAdd th e.2.1 e.2.2)).sum = 0
    · rw [if_pos hn] at h
      cases h
      refine ⟨rfl, rfl, ?_⟩
      symm
      change evs.flatMap _ = []
      rw [List.flatMap_eq_nil_iff]
      intro e he
      have := (List.sum_eq_zero_iff.1 hn) _ (List.mem_map.2 ⟨e, he, rfl⟩)
      rw [this]
      rfl
    · rw [if_neg hn] at h
      cases h
      refine ⟨rfl, rfl, ?_⟩
      simp only
      rw [List.map_map, npRepeat_bind, npRepeat_bind]
      have e3 : evs.flatMap (fun a : Impact K × K × Bool => List.replicate (nAdd th a.2.1 a.2.2) a.1) =
          (evs.flatMap (fun a : Impact K × K × Bool => List.replicate (nAdd th a.2.1 a.2.2) a)).map (fun a => a.1) := by
        rw [List.map_flatMap]
        simp
      have e4 : evs.flatMap (fun a : Impact K × K × Bool => List.replicate (nAdd th a.2.1 a.2.2)
            (((fun b : Emit K => b.nel) ∘ fun e : Impact K × K × Bool => baseReplace th e.1 e.2.1 e.2.2) a)) =
          (evs.flatMap (fun a : Impact K × K × Bool => List.replicate (nAdd th a.2.1 a.2.2) a)).map
            (fun a => (baseReplace th a.1 a.2.1 a.2.2).nel) := by
        rw [List.map_flatMap]
        simp
      rw [e3, e4, zip_map_same, List.map_map, List.map_map, List.map_map, zip_map_same, mapIdx_const, List.map_map, zip_map_same, List.map_map]
      unfold emitAll
      simp only
      rw [List.map_flatMap]
      simp

theorem mapIdx_fst {α β : Type} (l : List α) (f : ℕ → α → β) (g : α → β) (h : ∀ k a, f k a = g a) : l.mapIdx f = l.map g := by
  apply List.ext_getElem
  · simp
  · intro k h1 h2
    simp [h]

/-- **C158 (i).** The secondary emission of the default model, when the fraction emitted, whether it is elastic, energy and direction are
functions of the impact: whatever the threshold, the surface emits in proportion to each impact, however the emitted charge is split in
macroparticles. -/
theorem C158_ecloud (frac : Impact K → K) (el : Impact K → Bool) (eg : K → K) (dir : K → K → K → K × K × K) :
    SeyByImpact (seyEcloudModel (fun _ i => (i.nel * frac i.unit, el i.unit)) (fun l => .ok (l.map eg)) (fun l => .ok (l.map eg))
      (fun _ => dir) (fun _ => dir)) := by
  intro th
  let ph : Impact K → Phase K := fun i => if el i then
    ⟨i.x, i.y, i.z, (specular i.vx i.vy i.nx i.ny i.vn).1, (specular i.vx i.vy i.nx i.ny i.vn).2, i.vz⟩
    else ⟨i.x, i.y, i.z, (dir (eg i.en) i.nx i.ny).1, (dir (eg i.en) i.nx i.ny).2.1, (dir (eg i.en) i.nx i.ny).2.2⟩
  refine ⟨fun q i => frac i * q (ph i) i.seg, frac, ?_⟩
  intro imps out h
  unfold seyEcloudModel at h
  rw [mapIdx_fst imps _ (fun i => (i, i.nel * frac i.unit, el i.unit)) (fun _ _ => rfl)] at h
  obtain ⟨a1, a2, a3⟩ := seyECLOUD_det eg dir th _ out h
  refine ⟨?_, ?_, ?_⟩
  · rw [a2]
    simp [emitAll]
  · intro q
    have e1 : (out.replace.map (fun e => e.nel * q e.phase e.seg)).sum = (imps.map (fun i =>
        (baseReplace th i (i.nel * frac i.unit) (el i.unit)).nel * q (ph i.unit) i.seg)).sum := by
      rw [a2]
      unfold emitAll
      simp only [List.map_map]
      congr 1
      apply List.map_congr_left
      intro i _
      by_cases he : el i.unit = true
      · simp only [Function.comp_apply, he, if_true, ph]
        rfl
      · have he : el i.unit = false := by simpa using he
        simp only [Function.comp_apply, he, Bool.false_eq_true, if_false, ph]
        rfl
    have e2 : (out.new.map (fun e => e.nel * q e.phase e.seg)).sum = (imps.map (fun i => (nAdd th (i.nel * frac i.unit) (el i.unit) : K) *
        ((baseReplace th i (i.nel * frac i.unit) (el i.unit)).nel * q (ph i.unit) i.seg))).sum := by
      rw [a3]
      unfold emitAll
      simp only
      rw [List.map_flatMap]
      simp only [List.map_replicate]
      rw [flatMap_sum, List.map_map]
      congr 1
      apply List.map_congr_left
      intro i _
      by_cases he : el i.unit = true
      · simp [nAdd, he]
      · have he : el i.unit = false := by simpa using he
        simp only [Function.comp_apply, he, Bool.false_eq_true, if_false, ph]
        rfl
    rw [List.map_append, List.sum_append, e1, e2, ← map_sum_add]
    congr 1
    apply List.map_congr_left
    intro i _
    by_cases he : el i.unit = true
    · have hb : (baseReplace th i (i.nel * frac i.unit) (el i.unit)).nel = i.nel * frac i.unit := by
        rw [he]
        rfl
      have hz : nAdd th (i.nel * frac i.unit) (el i.unit) = 0 := by simp [nAdd, he]
      rw [hb, hz]
      change _ = i.nel * (frac i.unit * q (ph i.unit) i.seg)
      push_cast
      ring
    · have he : el i.unit = false := by simpa using he
      have hb : (baseReplace th i (i.nel * frac i.unit) (el i.unit)).nel =
          i.nel * frac i.unit / ((nAdd th (i.nel * frac i.unit) (el i.unit) : K) + 1) := by
        rw [he]
        rfl
      rw [hb]
      change _ = i.nel * (frac i.unit * q (ph i.unit) i.seg)
      have hpos : ((nAdd th (i.nel * frac i.unit) (el i.unit) : K) + 1) ≠ 0 := by positivity
      generalize hN : (nAdd th (i.nel * frac i.unit) (el i.unit) : K) = N at hpos ⊢
      field_simp
      ring
  · rw [a1, List.map_map]
    rfl

/-! ## the simulation -/

/-- **C158 (j), partial.** Two simulations that differ in how the charge is divided among macroparticles and in their order, with the same
settings and inputs: after any number of time steps the distributions of the charge, the histograms, the counters, the density and the
field are the same. For steps without cleaning and regeneration, without cross ionisation, and as long as there is room in the arrays. -/
theorem C158_run_partial {G : Type} [AddCommGroup G] (C : CplCfg K G) (ht : ∀ i, (C.tr i).Local) (hp : C.pic.ByCharge)
    (ha : ∀ i, (C.S.regen i).async = none) (inps : List (CplIn K)) (hsey : ∀ inp ∈ inps, ∀ i, SeyByImpact (inp.step.sey i))
    (hq : ∀ inp ∈ inps, inp.Quiet) (st1 st2 st1' st2' : CplSt K G) (H : SameState st1 st2)
    (r1 : ∀ k st, cplRun C (inps.take k) st1 = .ok st → st.sim.Roomy) (r2 : ∀ k st, cplRun C (inps.take k) st2 = .ok st → st.sim.Roomy)
    (h1 : cplRun C inps st1 = .ok st1') (h2 : cplRun C inps st2 = .ok st2') :
    SameState st1' st2' ∧ st1'.field C = st2'.field C := by
  suffices hs : SameState st1' st2' by
    refine ⟨hs, ?_⟩
    unfold CplSt.field
    rw [hs.rho]
  induction inps generalizing st1 st2 with
  | nil =>
    cases h1
    cases h2
    exact H
  | cons inp l ih =>
    simp only [cplRun] at h1 h2
    cases s1 : cplStep C inp st1 with
    | error e =>
      rw [s1] at h1
      cases h1
    | ok a1 =>
      cases s2 : cplStep C inp st2 with
      | error e =>
        rw [s2] at h2
        cases h2
      | ok a2 =>
        rw [s1] at h1
        rw [s2] at h2
        simp only at h1 h2
        have q1 : ∀ k st, cplRun C (l.take k) a1 = .ok st → st.sim.Roomy := by
          intro k st h
          apply r1 (k + 1) st
          rw [List.take_succ_cons]
          simp only [cplRun, s1]
          exact h
        have q2 : ∀ k st, cplRun C (l.take k) a2 = .ok st → st.sim.Roomy := by
          intro k st h
          apply r2 (k + 1) st
          rw [List.take_succ_cons]
          simp only [cplRun, s2]
          exact h
        have S := step_charge C inp ht (hsey inp (by simp)) hp (hq inp (by simp)) ha st1 st2 a1 a2 H (r1 0 st1 rfl) (r2 0 st2 rfl)
          (q1 0 a1 rfl) (q2 0 a2 rfl) s1 s2
        exact ih (fun x hx => hsey x (by simp [hx])) (fun x hx => hq x (by simp [hx])) a1 a2 S q1 q2 h1 h2

/-! ## examples -/

/-- the example cloud with its last macroparticle divided in two and its order changed -/
def splitCloud : MPs ℚ := { simCloud with
  arr := fun f => match f with
    | .x => [-2, 1, -2, 2, 0, 0, 0, 0, 0, 0, 0, 0]
    | .vx => [-2, 1, -2, -1, 0, 0, 0, 0, 0, 0, 0, 0]
    | .nel => [5, 10, 15, 1, 0, 0, 0, 0, 0, 0, 0, 0]
    | _ => [0, 0, 0, 0, 0, 0, 0, 0, 0, 0, 0, 0]
  nmp := 4 }

theorem splitCloud_same : SameCloud (⟨0, 1, simCloud⟩ : XCloud ℚ) ⟨0, 1, splitCloud⟩ := by
  refine ⟨⟨fun f => by cases f <;> decide, by decide⟩, ⟨fun f => by cases f <;> decide, by decide⟩, ?_, rfl, rfl, rfl⟩
  intro q
  have e1 : weigh q simCloud.live = 10 * q ⟨1, 0, 0, 1, 0, 0⟩ 0 + (1 * q ⟨2, 0, 0, -1, 0, 0⟩ 0 + (20 * q ⟨-2, 0, 0, -2, 0, 0⟩ 0 + 0)) := rfl
  have e2 : weigh q splitCloud.live = 5 * q ⟨-2, 0, 0, -2, 0, 0⟩ 0 + (10 * q ⟨1, 0, 0, 1, 0, 0⟩ 0 + (15 * q ⟨-2, 0, 0, -2, 0, 0⟩ 0 +
    (1 * q ⟨2, 0, 0, -1, 0, 0⟩ 0 + 0))) := rfl
  change weigh q simCloud.live = weigh q splitCloud.live
  rw [e1, e2]
  ring

def splitSt : CplSt ℚ (ℕ → ℕ → ℚ) :=
  { cplExSt 0 with sim := { (cplExSt 0).sim with clouds := [⟨0, 1, splitCloud⟩, ⟨1, 2, { simCloud with nmp := 1 }⟩] } }

theorem slabSey_byImpact : SeyByImpact slabSey :=
  C158_ecloud (fun _ => 3 / 2) (fun _ => false) (fun _ => 1) (fun e nx ny => (e * nx, e * ny, 0))

theorem splitSt_same : SameState (cplExSt 0) splitSt := by
  refine ⟨?_, rfl, rfl, rfl, rfl, rfl, rfl⟩
  refine List.Forall₂.cons splitCloud_same (List.Forall₂.cons ?_ List.Forall₂.nil)
  exact ⟨⟨fun f => by cases f <;> decide, by decide⟩, ⟨fun f => by cases f <;> decide, by decide⟩, fun q => rfl, rfl, rfl, rfl⟩

def roomyB (st : SimSt ℚ) : Bool := st.clouds.all (fun c => decide (c.mps.nmp < c.mps.cap))

theorem roomy_of {r : Except PyErr (CplSt ℚ (ℕ → ℕ → ℚ))} (h : (match r with | .ok s => roomyB s.sim | .error _ => true) = true) :
    ∀ st, r = .ok st → st.sim.Roomy := by
  intro st hr c hc
  rw [hr] at h
  simp only [roomyB, List.all_eq_true, decide_eq_true_eq] at h
  exact h c hc

theorem splitSt_run : ∃ r, cplRun (cplExCfg 0) [cplExIn, cplExIn] splitSt = .ok r ∧
    (r.sim.clouds.map (fun c : XCloud ℚ => (c.mps.nmp, c.mps.scatterArgs.take 2))) =
      [(9, [(-23 / 32, 5 / 16, 15 / 2), (71 / 32, -7 / 32, 10)]), (2, [(5 / 2, 17 / 128, 15 / 2), (5 / 2, 17 / 128, 15 / 2)])] :=
  exists_ok (by decide +kernel)

/-- both simulations run, the hypotheses of `C158_run_partial` hold, the field is not zero and the macroparticles are not the same -/
example : ∃ r r', cplRun (cplExCfg 0) [cplExIn, cplExIn] (cplExSt 0) = .ok r ∧ cplRun (cplExCfg 0) [cplExIn, cplExIn] splitSt = .ok r' ∧
    SameState r r' ∧ r'.field (cplExCfg 0) 1 1 = (-6209 / 8192, 1 / 8) ∧
    r.sim.clouds.map (fun c : XCloud ℚ => c.mps.scatterArgs.take 2) ≠ r'.sim.clouds.map (fun c : XCloud ℚ => c.mps.scatterArgs.take 2) := by
  obtain ⟨r, hr, e, e1⟩ := cplEx_run
  obtain ⟨r', hr', e'⟩ := splitSt_run
  have key := C158_run_partial (cplExCfg 0) (fun i => C158_boris _ _ _ _ _) (C158_density 5 5 (-2) (-2) 1 (by norm_num) _) (fun i => rfl)
    [cplExIn, cplExIn] (by
      intro inp hi i
      simp only [List.mem_cons, List.not_mem_nil, or_false, or_self] at hi
      rw [hi]
      exact slabSey_byImpact) (by
      intro inp hi
      simp only [List.mem_cons, List.not_mem_nil, or_false, or_self] at hi
      rw [hi]
      exact Or.inl rfl) (cplExSt 0) splitSt r r' splitSt_same
    (by
      intro k
      rcases k with _ | _ | _ | k
      · exact roomy_of (by decide +kernel)
      · exact roomy_of (by decide +kernel)
      · exact roomy_of (by decide +kernel)
      · rw [show [cplExIn, cplExIn].take (k + 1 + 1 + 1) = [cplExIn, cplExIn].take 2 by simp]
        exact roomy_of (by decide +kernel))
    (by
      intro k
      rcases k with _ | _ | _ | k
      · exact roomy_of (by decide +kernel)
      · exact roomy_of (by decide +kernel)
      · exact roomy_of (by decide +kernel)
      · rw [show [cplExIn, cplExIn].take (k + 1 + 1 + 1) = [cplExIn, cplExIn].take 2 by simp]
        exact roomy_of (by decide +kernel)) hr hr'
  refine ⟨r, r', hr, hr', key.1, ?_, ?_⟩
  · rw [← key.2]
    exact congrArg Prod.snd e
  · intro hc
    rw [e1] at hc
    have e2 := congrArg (List.map Prod.snd) e'
    rw [List.map_map] at e2
    have e2 : r'.sim.clouds.map (fun c : XCloud ℚ => c.mps.scatterArgs.take 2) = _ := e2
    rw [e2] at hc
    exact absurd hc (by decide +kernel)

/-! ## cleaning looks at single macroparticles -/

/-- **C158 (k).** Cleaning is excluded from the statement for a reason: of two clouds with the same distribution of the charge and the same
thresholds, one keeps its charge and the other loses it. -/
theorem C158_cleaning_violated : ∃ s s' : MPs ℚ, SameCloud ⟨0, 1, s⟩ ⟨0, 1, s'⟩ ∧ s.clTh = s'.clTh ∧
    (s.live.map (fun p => p .nel)).sum = 3 ∧ (s.clean.live.map (fun p => p .nel)).sum = 3 ∧
    (s'.live.map (fun p => p .nel)).sum = 3 ∧ (s'.clean.live.map (fun p => p .nel)).sum = 0 := by
  let a (v : List ℚ) (n : ℕ) : MPs ℚ := { simCloud with
    arr := fun f => match f with
      | .nel => v
      | _ => [0, 0, 0]
    nmp := n }
  refine ⟨a [3, 0, 0] 1, a [3 / 2, 3 / 2, 0] 2, ?_, rfl, by decide +kernel, by decide +kernel, by decide +kernel, by decide +kernel⟩
  refine ⟨⟨fun f => by cases f <;> decide, by decide⟩, ⟨fun f => by cases f <;> decide, by decide⟩, ?_, rfl, rfl, rfl⟩
  intro q
  have e1 : weigh q (a [3, 0, 0] 1).live = 3 * q ⟨0, 0, 0, 0, 0, 0⟩ 0 + 0 := rfl
  have e2 : weigh q (a [3 / 2, 3 / 2, 0] 2).live = 3 / 2 * q ⟨0, 0, 0, 0, 0, 0⟩ 0 + (3 / 2 * q ⟨0, 0, 0, 0, 0, 0⟩ 0 + 0) := rfl
  change weigh q (a [3, 0, 0] 1).live = weigh q (a [3 / 2, 3 / 2, 0] 2).live
  rw [e1, e2]
  ring

/-- `C158_divide` and `C158_totals` for a macroparticle of 20 electrons divided in 5 and 15 -/
example : ∃ p : Particle ℚ, p .nel = 5 + 15 ∧ SameCharge ([] ++ p :: []) ([] ++ p.set .nel 5 :: p.set .nel 15 :: []) :=
  ⟨fun f => if f = .nel then 20 else 1, by norm_num, C158_divide [] [] _ 5 15 (by norm_num)⟩

end PyECLOUD
