import Verif.Lemmas.Timing
import Verif.Spec.Timing

namespace PyECLOUD

set_option linter.unusedSectionVars false

variable {K : Type} [Field K] [LinearOrder K] [IsStrictOrderedRing K] [FloorRing K]

theorem freeFlight_zero (p : Particle K) : freeFlight 0 p = p := by
  funext f; cases f <;> simp [freeFlight, Particle.move]

theorem freeFlight_add (a b : K) (p : Particle K) : freeFlight b (freeFlight a p) = freeFlight (a + b) p := by
  funext f; cases f <;> simp [freeFlight, Particle.move] <;> ring

/-- a tracker that moves particles on straight lines when there is no field -/
structure TrackerObj.Free (tr : TrackerObj K) : Prop where
  step : ∀ s s' f, f.Zero → tr.step s f = .ok s' → s'.live = s.live.map (freeFlight tr.dt)
  custom : ∀ s s' f d n, f.Zero → tr.stepCustom s f d n = .ok s' → s'.live = s.live.map (freeFlight (n * d))

theorem addE_zero (f : Fields K) (n : ℕ) (ex ey : List K) (hf : f.Zero) (hx : ∀ i, ex.getD i 0 = 0)
    (hy : ∀ i, ey.getD i 0 = 0) : (f.addE n ex ey).Zero := by
  have key : ∀ (a b : List K), (∀ i, a.getD i 0 = 0) → (∀ i, b.getD i 0 = 0) →
      ∀ i, ((List.range n).map (fun i : ℕ => a.getD i 0 + b.getD i 0)).getD i 0 = 0 := by
    intro a b ha hb i
    simp only [ha, hb, add_zero]
    by_cases h : i < n
    · rw [List.getD_eq_getElem _ _ (by simpa using h)]; simp
    · rw [List.getD_eq_default _ _ (by simpa using h)]
  intro i
  obtain ⟨h1, h2, h3, h4, h5⟩ := hf i
  exact ⟨key _ _ (fun i => (hf i).1) hx i, key _ _ (fun i => (hf i).2.1) hy i, h3, h4, h5⟩

theorem motionLoop_free (tr : TrackerObj K) (htr : tr.Free) (cloudF : MPs K → Fields K)
    (hF : ∀ s, (cloudF s).Zero) (beamE : Option (MPs K → List K × List K))
    (hB : ∀ b ∈ beamE, ∀ s i, (b s).1.getD i 0 = 0 ∧ (b s).2.getD i 0 = 0) (nint : ℕ) (dtSub : Option K)
    (k : ℕ) (s s' : MPs K) (h : motionLoop tr cloudF beamE nint dtSub k s = .ok s') :
    s'.live = s.live.map (freeFlight (Plan.total ⟨k, nint, dtSub⟩ tr.dt)) := by
  induction k generalizing s with
  | zero =>
    simp only [motionLoop, Except.ok.injEq] at h
    subst h
    have : Plan.total (⟨0, nint, dtSub⟩ : Plan K) tr.dt = 0 := by
      unfold Plan.total; cases dtSub <;> simp
    rw [this]
    have hid : (fun p : Particle K => freeFlight 0 p) = id := by funext p; exact freeFlight_zero p
    change s.live = s.live.map (fun p => freeFlight 0 p)
    rw [hid, List.map_id]
  | succ k ih =>
    rw [motionLoop] at h
    generalize hf : motionFields cloudF beamE s = f at h
    have hfz : f.Zero := by
      cases beamE with
      | none => rw [← hf]; exact hF s
      | some b =>
        rw [← hf]
        exact addE_zero _ _ _ _ (hF s) (fun i => (hB b rfl s i).1) (fun i => (hB b rfl s i).2)
    cases dtSub with
    | none =>
      dsimp only [motionOne] at h
      cases hs : tr.step s f with
      | error e => rw [hs] at h; cases h
      | ok s1 =>
        rw [hs] at h
        rw [ih s1 h, htr.step s s1 f hfz hs, List.map_map]
        apply List.map_congr_left
        intro p _
        simp only [Function.comp]
        rw [freeFlight_add]
        congr 1
        simp only [Plan.total]
        push_cast
        ring
    | some d =>
      dsimp only [motionOne] at h
      cases hs : tr.stepCustom s f d nint with
      | error e => rw [hs] at h; cases h
      | ok s1 =>
        rw [hs] at h
        rw [ih s1 h, htr.custom s s1 f d nint hfz hs, List.map_map]
        apply List.map_congr_left
        intro p _
        simp only [Function.comp]
        rw [freeFlight_add]
        congr 1
        simp only [Plan.total]
        push_cast
        ring

theorem mapIdx_eq_map {α β : Type} (l : List α) (g : ℕ → α → β) (h : α → β)
    (hg : ∀ i, ∀ (hi : i < l.length), g i l[i] = h l[i]) : l.mapIdx g = l.map h := by
  apply List.ext_getElem (by simp)
  intro i h1 h2
  simp [hg i (by simpa using h1)]

theorem borisSub_free (qm d : K) (n : ℕ) (p : Particle K) (getB : K → K → V3 K) (hB : ∀ x y, getB x y = ⟨0, 0, 0⟩) :
    Particle.move p (borisSub qm d ⟨0, 0, 0⟩ getB n p.phase) = freeFlight ((n : K) * d) p := by
  rw [borisSub_congr _ _ _ _ _ hB, borisSub_noB]
  funext f
  cases f <;> simp [freeFlight, Particle.move, Particle.phase] <;> ring

theorem borisObj_free (qm dt : K) (n : ℕ) (hn : n ≠ 0) : (borisObj .none ⟨0, 0, 0⟩ qm dt n).Free := by
  have hn' : (n : K) ≠ 0 := Nat.cast_ne_zero.mpr hn
  have hB : ∀ x y : K, (BSrc.none : BSrc K).getB ⟨0, 0, 0⟩ x y = ⟨0, 0, 0⟩ := by
    intro x y; simp [BSrc.getB]
  constructor
  · intro s s' f hf h
    simp only [borisObj, borisStep, Except.ok.injEq] at h
    subst h
    rw [live_push]
    apply mapIdx_eq_map
    intro i hi
    have : (⟨f.ex, f.ey, []⟩ : EArr K).at i = ⟨0, 0, 0⟩ := by
      unfold EArr.at
      dsimp only
      rw [(hf i).1, (hf i).2.1]; rfl
    rw [this, borisSub_free _ _ _ _ _ hB]
    congr 1
    rw [mul_div_cancel₀ _ hn']
    rfl
  · intro s s' f d m hf h
    simp only [borisObj, borisCustomDt, Except.ok.injEq] at h
    subst h
    rw [live_push]
    apply mapIdx_eq_map
    intro i hi
    have : (⟨f.ex, f.ey, []⟩ : EArr K).at i = ⟨0, 0, 0⟩ := by
      unfold EArr.at
      dsimp only
      rw [(hf i).1, (hf i).2.1]; rfl
    rw [this, borisSub_free _ _ _ _ _ hB]

theorem multipoleObj_free (qm dt : K) (n : ℕ) (hn : n ≠ 0) :
    (multipoleObj [0] [0] none none none qm dt n).Free := by
  have hn' : (n : K) ≠ 0 := Nat.cast_ne_zero.mpr hn
  have hB : ∀ (f : Fields K) (i : ℕ), f.Zero → ∀ x y : K, multipoleField [0] [0]
      ((⟨none, none, none, some f.bx, some f.yb, some f.bz⟩ : CustomB K).at i) x y = ⟨0, 0, 0⟩ := by
    intro f i hf x y
    obtain ⟨-, -, h3, h4, h5⟩ := hf i
    simp only [CustomB.at, Option.isSome_some, Option.isSome_none, Bool.or_true, Bool.true_or, if_true,
      Option.map_some, Option.getD_some, Option.getD_none, h3, h4, h5]
    simp [multipoleField, multipoleLoop]
  constructor
  · intro s s' f hf h
    simp only [multipoleObj, multipoleStep, multipoleCustomDt, ne_eq, not_true_eq_false, and_false, if_false,
      Except.ok.injEq] at h
    subst h
    rw [live_push]
    apply mapIdx_eq_map
    intro i hi
    rw [(hf i).1, (hf i).2.1, borisSub_free _ _ _ _ _ (hB f i hf)]
    congr 1
    rw [mul_div_cancel₀ _ hn']
    rfl
  · intro s s' f d m hf h
    simp only [multipoleObj, multipoleCustomDt, ne_eq, not_true_eq_false, and_false, if_false,
      Except.ok.injEq] at h
    subst h
    rw [live_push]
    apply mapIdx_eq_map
    intro i hi
    rw [(hf i).1, (hf i).2.1, borisSub_free _ _ _ _ _ (hB f i hf)]

theorem dipoleObj_free (qm dt : ℝ) : (dipoleObj qm 0 dt).Free := by
  constructor
  · intro s s' f hf h
    simp only [dipoleObj, dipoleStep, Except.ok.injEq] at h
    subst h
    rw [live_push]
    apply mapIdx_eq_map
    intro i hi
    rw [(hf i).1, (hf i).2.1]
    funext g
    cases g <;> simp [dipoleMove, dipoleObj, sincc, cosincc, cubsincc, freeFlight, Particle.move, Particle.phase]
  · intro s s' f d m hf h
    simp only [dipoleObj, reduceCtorEq] at h

theorem strongObj_free (qm thr dt : ℝ) (hthr : 0 < thr) : (strongObj .none 0 0 qm thr dt).Free := by
  constructor
  · intro s s' f hf h
    simp only [strongObj, strongStep, Except.ok.injEq] at h
    subst h
    rw [live_push]
    apply mapIdx_eq_map
    intro i hi
    rw [(hf i).1, (hf i).2.1]
    funext g
    cases g <;> simp [strongMove, strongObj, BSrc.getB, hthr, freeFlight, Particle.move, Particle.phase]
  · intro s s' f d m hf h
    simp only [strongObj, reduceCtorEq] at h

/-! ## Space-charge schedule -/

section sched
variable {K : Type} [Field K] [LinearOrder K] [IsStrictOrderedRing K]

theorem scRun_length (dtSc : Option K) (on tl : K) (l : List (K × Bool)) :
    (scRun dtSc on tl l).length = l.length := by
  induction l generalizing tl with
  | nil => rfl
  | cons a l ih => obtain ⟨t, f⟩ := a; simp [scRun, ih]

theorem scRun_timely (d on : K) (hd : 0 < d) (l : List (K × Bool)) (tl : K) (i : ℕ) (hi : i < l.length) :
    (∃ j ≤ i, (l.getD i (0, false)).1 - (l.getD j (0, false)).1 < d ∧
      ((l.getD j (0, false)).1 > on → (scRun (some d) on tl l).getD j false = true))
    ∨ (l.getD i (0, false)).1 - tl < d := by
  induction l generalizing tl i with
  | nil => simp at hi
  | cons a l ih =>
    obtain ⟨t, f⟩ := a
    rw [scRun]
    by_cases hc : t - tl ≥ d
    · have hr : scCheck (some d) tl t = (true, t) := by simp [scCheck, hc]
      rw [hr]
      have h0 : (t > on → scDo on t true f = true) := by intro h; simp [scDo, h]
      cases i with
      | zero => exact .inl ⟨0, le_rfl, by simpa using hd, by simpa using h0⟩
      | succ i =>
        rcases ih t i (by simpa using hi) with ⟨j, hj, h1, h2⟩ | h
        · exact .inl ⟨j + 1, by omega, by simpa using h1, by simpa using h2⟩
        · exact .inl ⟨0, by omega, by simpa using h, by simpa using h0⟩
    · have hr : scCheck (some d) tl t = (false, tl) := by simp [scCheck, hc]
      rw [hr]
      cases i with
      | zero => exact .inr (by simpa using hc)
      | succ i =>
        rcases ih tl i (by simpa using hi) with ⟨j, hj, h1, h2⟩ | h
        · exact .inl ⟨j + 1, by omega, by simpa using h1, by simpa using h2⟩
        · exact .inr (by simpa using h)

theorem scRun_gap_first (d on : K) (hd : 0 ≤ d) (l : List (K × Bool)) (tl : K) (j : ℕ) (hj : j < l.length)
    (hf : (l.getD j (0, false)).2 = false) (ho : (scRun (some d) on tl l).getD j false = true) :
    tl + d ≤ (l.getD j (0, false)).1 := by
  induction l generalizing tl j with
  | nil => simp at hj
  | cons a l ih =>
    obtain ⟨t, f⟩ := a
    rw [scRun] at ho
    by_cases hc : t - tl ≥ d
    · have hr : scCheck (some d) tl t = (true, t) := by simp [scCheck, hc]
      rw [hr] at ho
      cases j with
      | zero => simp; linarith
      | succ j =>
        have := ih t j (by simpa using hj) (by simpa using hf) (by simpa using ho)
        simp only [List.getD_cons_succ]
        linarith
    · have hr : scCheck (some d) tl t = (false, tl) := by simp [scCheck, hc]
      rw [hr] at ho
      cases j with
      | zero => simp [scDo] at ho hf; rw [hf] at ho; cases ho
      | succ j =>
        simpa using ih tl j (by simpa using hj) (by simpa using hf) (by simpa using ho)

theorem scRun_gap (d on : K) (hd : 0 ≤ d) (l : List (K × Bool)) (tl : K) (i j : ℕ) (hij : i < j)
    (hj : j < l.length) (hfi : (l.getD i (0, false)).2 = false) (hfj : (l.getD j (0, false)).2 = false)
    (hoi : (scRun (some d) on tl l).getD i false = true) (hoj : (scRun (some d) on tl l).getD j false = true) :
    (l.getD i (0, false)).1 + d ≤ (l.getD j (0, false)).1 := by
  induction l generalizing tl i j with
  | nil => simp at hj
  | cons a l ih =>
    obtain ⟨t, f⟩ := a
    obtain ⟨j, rfl⟩ : ∃ k, j = k + 1 := ⟨j - 1, by omega⟩
    rw [scRun] at hoi hoj
    cases i with
    | zero =>
      by_cases hc : t - tl ≥ d
      · have hr : scCheck (some d) tl t = (true, t) := by simp [scCheck, hc]
        rw [hr] at hoj
        simpa using scRun_gap_first d on hd l t j (by simpa using hj) (by simpa using hfj) (by simpa using hoj)
      · have hr : scCheck (some d) tl t = (false, tl) := by simp [scCheck, hc]
        rw [hr] at hoi
        simp [scDo] at hoi hfi
        rw [hfi] at hoi; cases hoi
    | succ i =>
      simpa using ih _ i j (by omega) (by simpa using hj) (by simpa using hfi) (by simpa using hfj)
        (by simpa using hoi) (by simpa using hoj)

theorem scRun_off (dtSc : Option K) (on : K) (l : List (K × Bool)) (tl : K) (i : ℕ) (hi : i < l.length)
    (hf : (l.getD i (0, false)).2 = false) (ht : (l.getD i (0, false)).1 ≤ on) :
    (scRun dtSc on tl l).getD i false = false := by
  induction l generalizing tl i with
  | nil => simp at hi
  | cons a l ih =>
    obtain ⟨t, f⟩ := a
    rw [scRun]
    cases i with
    | zero =>
      simp only [List.getD_cons_zero] at hf ht ⊢
      simp [scDo, hf, ht]
    | succ i => simpa using ih _ i (by simpa using hi) (by simpa using hf) (by simpa using ht)

theorem scRun_forced (dtSc : Option K) (on : K) (l : List (K × Bool)) (tl : K) (i : ℕ) (hi : i < l.length)
    (hf : (l.getD i (0, false)).2 = true) : (scRun dtSc on tl l).getD i false = true := by
  induction l generalizing tl i with
  | nil => simp at hi
  | cons a l ih =>
    obtain ⟨t, f⟩ := a
    rw [scRun]
    cases i with
    | zero =>
      simp only [List.getD_cons_zero] at hf ⊢
      simp [scDo, hf]
    | succ i => simpa using ih _ i (by simpa using hi) (by simpa using hf)

theorem scRun_nodecim (on : K) (l : List (K × Bool)) (tl : K) (i : ℕ) (hi : i < l.length)
    (ht : on < (l.getD i (0, false)).1) : (scRun none on tl l).getD i false = true := by
  induction l generalizing tl i with
  | nil => simp at hi
  | cons a l ih =>
    obtain ⟨t, f⟩ := a
    rw [scRun]
    cases i with
    | zero =>
      simp only [List.getD_cons_zero] at ht ⊢
      simp [scDo, scCheck, ht]
    | succ i => simpa using ih _ i (by simpa using hi) (by simpa using ht)

end sched

theorem rhoRound_spec {G : Type} [AddCommGroup G] (n : ℕ) (done rest : List G) (s : RhoSt G)
    (hn : n = done.length + rest.length) (hc : s.cloudRho = done) (hr : done ≠ [] → s.rho = done.sum) :
    let r := rhoRound n done.length rest s
    r.cloudRho = done ++ rest ∧
    (done ++ rest ≠ [] → r.rho = (done ++ rest).sum) ∧
    r.solved = s.solved ++ (if rest = [] then [] else [(done ++ rest).sum]) := by
  induction rest generalizing done s with
  | nil => simp [rhoRound, hc]; exact hr
  | cons d rest ih =>
    intro r
    have hrho : (rhoCloudStep n s done.length d).rho = (done ++ [d]).sum := by
      unfold rhoCloudStep
      by_cases h0 : done.length = 0
      · have : done = [] := List.length_eq_zero_iff.mp h0
        simp [this]
      · have : done ≠ [] := by rintro rfl; simp at h0
        simp only [decide_eq_false h0, cond_false, hr this, List.sum_append, List.sum_cons, List.sum_nil, add_zero]
    have hcl : (rhoCloudStep n s done.length d).cloudRho = done ++ [d] := by
      have h1 : (rhoCloudStep n s done.length d).cloudRho
          = s.cloudRho ++ [(rhoCloudStep n s done.length d).rho - (s.cloudRho.take done.length).sum] := rfl
      rw [h1, hrho, hc]
      simp
    have := ih (done ++ [d]) (rhoCloudStep n s done.length d) (by simp at hn ⊢; omega) hcl (fun _ => hrho)
    have hr' : r = rhoRound n (done ++ [d]).length rest (rhoCloudStep n s done.length d) := by
      simp [r, rhoRound]
    rw [← hr'] at this
    obtain ⟨a, b, c⟩ := this
    refine ⟨by simpa using a, fun _ => by simpa using b (by simp), ?_⟩
    rw [c]
    have hs : (rhoCloudStep n s done.length d).solved
        = cond (decide (done.length + 1 = n)) (s.solved ++ [(rhoCloudStep n s done.length d).rho]) s.solved := rfl
    rw [hs, hrho]
    by_cases hre : rest = []
    · subst hre
      have : done.length + 1 = n := by simpa using hn.symm
      simp [this]
    · have : ¬ done.length + 1 = n := by
        have := List.length_pos_iff.mpr hre
        simp at hn; omega
      simp [this, hre]

end PyECLOUD
