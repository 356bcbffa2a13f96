import Verif.Spec.Components
import Verif.Props.Yield
import Verif.Props.MPSystem
import Verif.Lemmas.Sources
import Mathlib.MeasureTheory.Integral.IntervalIntegral.FundThmCalculus
import Mathlib.Analysis.SpecialFunctions.Integrals.Basic

/-!
# Construction of the parts of a cloud (C101-C104)
-/

set_option linter.unusedSectionVars false

namespace PyECLOUD

/-! ## C101 -/

theorem getD_or {o : Option ℝ} {d x : ℝ} : (o = some x ∨ o = none ∧ x = d) ↔ x = o.getD d := by
  cases o with
  | none => simp
  | some y => simp [eq_comm]

/-- **C101**: a surface is built exactly for the settings of the table, with the given parameters or the defaults; everything else is
refused. -/
theorem C101_table (polyg : Bool) (c : SurfSet) (f : Surf) : surfaceOf polyg c = .ok f ↔ Chosen polyg c f := by
  constructor
  · intro h
    unfold surfaceOf at h
    by_cases h1 : c.switch = .str "perfect_absorber"
    · rw [if_pos h1] at h
      cases h
      exact .absorber h1
    rw [if_neg h1] at h
    by_cases h2 : c.s.isSome ∧ ¬ (c.switch = .int 0 ∨ c.switch = .str "ECLOUD")
    · rw [if_pos h2] at h; cases h
    rw [if_neg h2] at h
    by_cases h3 : c.switch = .int 0 ∨ c.switch = .str "ECLOUD"
    · rw [if_pos h3] at h
      cases h
      exact .ecloud _ _ h3 (getD_or.2 rfl) (getD_or.2 rfl)
    rw [if_neg h3] at h
    have hs : c.s = none := by
      cases hc : c.s with
      | none => rfl
      | some s => exact absurd ⟨by rw [hc]; rfl, h3⟩ h2
    by_cases h4 : c.switch = .int 1 ∨ c.switch = .str "ACC_LOW"
    · rw [if_pos h4] at h
      cases h
      exact .accLow _ h4 (getD_or.2 rfl) hs
    rw [if_neg h4] at h
    by_cases h5 : c.switch = .str "ECLOUD_nunif"
    · rw [if_pos h5] at h
      by_cases hp : polyg = true
      · rw [if_pos hp] at h
        cases h
        exact .nonUnif _ h5 hp (getD_or.2 rfl) hs
      · rw [if_neg hp] at h; cases h
    rw [if_neg h5] at h
    by_cases h6 : c.switch = .str "ECLOUD_nunif_charging"
    · rw [if_pos h6] at h
      by_cases hp : polyg = true
      · rw [if_pos hp] at h
        cases h
        exact .charging _ h6 hp (getD_or.2 rfl) hs
      · rw [if_neg hp] at h; cases h
    rw [if_neg h6] at h
    by_cases h7 : c.switch = .str "cos_low_ene"
    · rw [if_pos h7] at h
      cases h
      exact .cosLow _ h7 (getD_or.2 rfl) hs
    rw [if_neg h7] at h
    have hn : ∀ {g : Surf}, (if c.e0.isSome then (Except.error InitErr.typeError : Except InitErr Surf) else .ok g) = .ok f →
        c.e0 = none ∧ f = g := by
      intro g hg
      cases he : c.e0 with
      | none => rw [he] at hg; exact ⟨rfl, (Except.ok.inj hg).symm⟩
      | some x => rw [he] at hg; cases hg
    by_cases h8 : c.switch = .str "flat_low_ene"
    · rw [if_pos h8] at h
      obtain ⟨he, rfl⟩ := hn h
      have : c.fixed 0 = ⟨c.eMax, c.delMax, c.r0, 0, 1.35, true, true⟩ := by simp [SurfSet.fixed, he]
      rw [this]
      exact .flatLow h8 he hs
    rw [if_neg h8] at h
    by_cases h9 : c.switch = .str "from_file"
    · rw [if_pos h9] at h
      obtain ⟨he, rfl⟩ := hn h
      exact .table h9 he hs
    rw [if_neg h9] at h
    by_cases h10 : c.switch = .str "furman_pivi"
    · rw [if_pos h10] at h
      obtain ⟨he, rfl⟩ := hn h
      exact .furman h10 he hs
    rw [if_neg h10] at h
    cases h
  · intro h
    cases h with
    | absorber h => simp [surfaceOf, h]
    | ecloud e0 s h he hs =>
      rw [getD_or.1 he, getD_or.1 hs]
      rcases h with h | h <;> simp [surfaceOf, h]
    | accLow e0 h he hs =>
      rw [getD_or.1 he]
      rcases h with h | h <;> simp [surfaceOf, h, hs, SurfSet.fixed]
    | nonUnif e0 h hp he hs =>
      rw [getD_or.1 he]
      simp [surfaceOf, h, hs, hp, SurfSet.fixed]
    | charging e0 h hp he hs =>
      rw [getD_or.1 he]
      simp [surfaceOf, h, hs, hp, SurfSet.fixed]
    | cosLow e0 h he hs =>
      rw [getD_or.1 he]
      simp [surfaceOf, h, hs, SurfSet.fixed]
    | flatLow h he hs => simp [surfaceOf, h, hs, he, SurfSet.fixed]
    | table h he hs => simp [surfaceOf, h, hs, he]
    | furman h he hs => simp [surfaceOf, h, hs, he]

/-- settings of an LHC surface -/
noncomputable def exSurf : SurfSet := ⟨.str "ECLOUD", none, none, 332, 1.7, 0.7, true, true⟩

example : surfaceOf false exSurf = .ok (.ecloud lhcPar) ∧ surfaceOf false { exSurf with switch := .str "ECLOUD_nunif" } = .error .valueError := by
  refine ⟨(C101_table _ _ _).2 ?_, by simp [surfaceOf, exSurf]⟩
  have : lhcPar = ⟨332, 1.7, 0.7, 150, 1.35, true, true⟩ := rfl
  rw [this]
  exact Chosen.ecloud (c := exSurf) 150 1.35 (Or.inr rfl) (Or.inr ⟨rfl, rfl⟩) (Or.inr ⟨rfl, rfl⟩)

/-- **C101**, the angular settings as far as they are obeyed: with both flags off, the yield of the ECLOUD surface does not depend
on the angle. Missing: the other surfaces with a formula, which ignore the flags (`C101_angle_violated`). -/
theorem C101_angle_partial (polyg : Bool) (c : SurfSet) (f : Surf) (hf : surfaceOf polyg c = .ok f)
    (hm : c.switch = .int 0 ∨ c.switch = .str "ECLOUD") (h1 : c.scale = false) (h2 : c.shift = false) (e cth cth' : ℝ) :
    ∃ y, f.yield e cth = some y ∧ f.yield e cth' = some y := by
  have hc := (C101_table polyg c f).1 hf
  cases hc with
  | ecloud e0 s h he hs =>
    refine ⟨_, rfl, ?_⟩
    simp [Surf.yield, yieldECLOUD, yieldTrue, h1, h2]
  | absorber h => rcases hm with hm | hm <;> rw [h] at hm <;> simp at hm
  | accLow e0 h he hs => rcases hm with hm | hm <;> rcases h with h | h <;> rw [h] at hm <;> simp at hm
  | nonUnif e0 h hp he hs => rcases hm with hm | hm <;> rw [h] at hm <;> simp at hm
  | charging e0 h hp he hs => rcases hm with hm | hm <;> rw [h] at hm <;> simp at hm
  | cosLow e0 h he hs => rcases hm with hm | hm <;> rw [h] at hm <;> simp at hm
  | flatLow h he hs => rcases hm with hm | hm <;> rw [h] at hm <;> simp at hm
  | table h he hs => rcases hm with hm | hm <;> rw [h] at hm <;> simp at hm
  | furman h he hs => rcases hm with hm | hm <;> rw [h] at hm <;> simp at hm

example : ∃ f, surfaceOf true { exSurf with scale := false, shift := false } = .ok f := by
  refine ⟨_, (C101_table _ _ _).2 (Chosen.ecloud (c := { exSurf with scale := false, shift := false }) 150 1.35 (Or.inr rfl) (Or.inr ⟨rfl, rfl⟩) (Or.inr ⟨rfl, rfl⟩))⟩

/-- **C101**, the parameters mean what they say: at the energy `E_max` and normal incidence, an accepted surface has the true secondaries
`del_max` on top of the electrons which its law reflects. -/
theorem C101_maximum (polyg : Bool) (c : SurfSet) (f : Surf) (hf : surfaceOf polyg c = .ok f) (hE : 0 < c.eMax) (hs : c.s ≠ some 0) :
    (c.switch = .int 0 ∨ c.switch = .str "ECLOUD" ∨ c.switch = .int 1 ∨ c.switch = .str "ACC_LOW" → ∃ r,
      f.yield c.eMax 1 = some (c.delMax + c.r0 * ((√c.eMax - √(c.eMax + c.e0.getD 150)) / (√c.eMax + √(c.eMax + c.e0.getD 150))) ^ 2, r)) ∧
    (c.switch = .str "cos_low_ene" → ∃ r,
      f.yield c.eMax 1 = some (c.delMax + (if c.eMax < c.e0.getD 30 then c.r0 * Real.cos (0.5 * Real.pi * c.eMax / c.e0.getD 30) ^ 2 else 0), r)) ∧
    (c.switch = .str "flat_low_ene" → ∃ r, f.yield c.eMax 1 = some (c.delMax, r)) := by
  have hT : ∀ (s r0 e0 : ℝ) (a b : Bool), s ≠ 0 → yieldTrue ⟨c.eMax, c.delMax, r0, e0, s, a, b⟩ c.eMax 1 = c.delMax := by
    intro s r0 e0 a b hs0
    have hx : c.eMax / c.eMax = 1 := div_self hE.ne'
    cases a <;> cases b <;> simp [yieldTrue, hx, hs0]
  have hT' : ∀ (r0 e0 : ℝ) (a b : Bool), yieldTrue ⟨c.eMax, c.delMax, r0, e0, 1.35, a, b⟩ c.eMax 1 = c.delMax :=
    fun r0 e0 a b => hT _ _ _ _ _ (by norm_num)
  have hc := (C101_table polyg c f).1 hf
  cases hc with
  | absorber h => rw [h]; refine ⟨fun q => ?_, fun q => ?_, fun q => ?_⟩ <;> simp at q
  | ecloud e0 s h he hs' =>
    refine ⟨fun _ => ?_, fun q => ?_, fun q => ?_⟩
    · have e1 : c.e0.getD 150 = e0 := by rcases he with q | ⟨q1, q2⟩ <;> simp [*]
      have e2 : s ≠ 0 := by
        rcases hs' with q | ⟨-, q2⟩
        · intro z; rw [z] at q; exact hs q
        · rw [q2]; norm_num
      rw [e1]
      refine ⟨_, congrArg (fun t => some (t + _, _)) (hT s c.r0 e0 c.scale c.shift e2)⟩
    · rcases h with h | h <;> rw [h] at q <;> simp at q
    · rcases h with h | h <;> rw [h] at q <;> simp at q
  | accLow e0 h he hs' =>
    refine ⟨fun _ => ?_, fun q => ?_, fun q => ?_⟩
    · have e1 : c.e0.getD 150 = e0 := by rcases he with q | ⟨q1, q2⟩ <;> simp [*]
      rw [e1]
      refine ⟨_, congrArg (fun t => some (t + _, _)) (hT' c.r0 e0 true true)⟩
    · rcases h with h | h <;> rw [h] at q <;> simp at q
    · rcases h with h | h <;> rw [h] at q <;> simp at q
  | nonUnif e0 h hp he hs => rw [h]; refine ⟨fun q => ?_, fun q => ?_, fun q => ?_⟩ <;> simp at q
  | charging e0 h hp he hs => rw [h]; refine ⟨fun q => ?_, fun q => ?_, fun q => ?_⟩ <;> simp at q
  | cosLow e0 h he hs =>
    refine ⟨fun q => ?_, fun _ => ?_, fun q => ?_⟩
    · rw [h] at q; simp at q
    · have e1 : c.e0.getD 30 = e0 := by rcases he with q | ⟨q1, q2⟩ <;> simp [*]
      rw [e1]
      refine ⟨_, congrArg (fun t => some (t + _, _)) (hT' c.r0 e0 true true)⟩
    · rw [h] at q; simp at q
  | flatLow h he hs =>
    refine ⟨fun q => ?_, fun q => ?_, fun _ => ?_⟩
    · rw [h] at q; simp at q
    · rw [h] at q; simp at q
    · have : yieldFlat ⟨c.eMax, c.delMax, c.r0, 0, 1.35, true, true⟩ c.eMax 1 = (c.delMax, (c.delMax - c.delMax) / c.delMax) := by
        simp only [yieldFlat, hT', lt_irrefl, and_false, if_false]
      exact ⟨_, congrArg some this⟩
  | table h he hs => rw [h]; refine ⟨fun q => ?_, fun q => ?_, fun q => ?_⟩ <;> simp at q
  | furman h he hs => rw [h]; refine ⟨fun q => ?_, fun q => ?_, fun q => ?_⟩ <;> simp at q

/-- **C101** is violated: with both angular flags off, the surfaces `ACC_LOW` and `cos_low_ene` are accepted, and their
yield depends on the angle all the same. -/
theorem C101_angle_violated (m : String) (hm : m = "ACC_LOW" ∨ m = "cos_low_ene") :
    ∃ f y y', surfaceOf true { exSurf with switch := .str m, scale := false, shift := false } = .ok f ∧
      f.yield 332 1 = some y ∧ f.yield 332 0 = some y' ∧ y.1 ≠ y'.1 := by
  have key : ∀ e0 : ℝ, yieldTrue ⟨332, 1.7, 0.7, e0, 1.35, true, true⟩ 332 0 ≠ yieldTrue ⟨332, 1.7, 0.7, e0, 1.35, true, true⟩ 332 1 := by
    intro e0
    have h1 : yieldTrue ⟨332, 1.7, 0.7, e0, 1.35, true, true⟩ 332 1 = 1.7 := by
      simp only [yieldTrue, if_true]
      norm_num
    have hx : (0 : ℝ) < (1 / 1.7 : ℝ) ^ (1.35 : ℝ) := by positivity
    have hx1 : (1 / 1.7 : ℝ) ^ (1.35 : ℝ) < 1 / 1.7 := by
      have := Real.rpow_lt_rpow_of_exponent_gt (by norm_num : (0 : ℝ) < 1 / 1.7) (by norm_num : (1 / 1.7 : ℝ) < 1) (by norm_num : (1 : ℝ) < 1.35)
      simpa using this
    have h0 : yieldTrue ⟨332, 1.7, 0.7, e0, 1.35, true, true⟩ 332 0 = 1.7 * Real.exp 0.5 * (1.35 * (1 / 1.7)) / (0.35 + (1 / 1.7 : ℝ) ^ (1.35 : ℝ)) := by
      simp only [yieldTrue, if_true]
      norm_num
    rw [h0, h1]
    have he : (1.5 : ℝ) ≤ Real.exp 0.5 := by
      have := Real.add_one_le_exp (0.5 : ℝ)
      linarith
    intro hc
    rw [div_eq_iff (by positivity)] at hc
    nlinarith
  rcases hm with rfl | rfl
  · refine ⟨_, _, _, (C101_table _ _ _).2 (Chosen.accLow (c := { exSurf with switch := .str "ACC_LOW", scale := false, shift := false }) 150
      (Or.inr rfl) (Or.inr ⟨rfl, rfl⟩) rfl), rfl, rfl, ?_⟩
    intro h
    have := key 150
    simp only [exSurf, yieldRefl] at h
    exact this (by linarith)
  · refine ⟨_, _, _, (C101_table _ _ _).2 (Chosen.cosLow (c := { exSurf with switch := .str "cos_low_ene", scale := false, shift := false }) 30
      rfl (Or.inr ⟨rfl, rfl⟩) rfl), rfl, rfl, ?_⟩
    intro h
    have := key 30
    simp only [exSurf, yieldCos, cosRefl] at h
    exact this (by linarith)

/-- **C101** is violated: the energy `E0` is a documented parameter; giving it with the surfaces `flat_low_ene`, `from_file` or
`furman_pivi` stops the construction with a `TypeError` instead of a message about the settings. -/
theorem C101_E0_violated (polyg : Bool) (c : SurfSet) (hs : c.s = none) (e0 : ℝ) (he : c.e0 = some e0)
    (hm : c.switch = .str "flat_low_ene" ∨ c.switch = .str "from_file" ∨ c.switch = .str "furman_pivi") :
    surfaceOf polyg c = .error .typeError := by
  rcases hm with h | h | h <;> simp [surfaceOf, h, hs, he]

/-! ## C102 -/

/-- **C102**, sources as far as it holds: with a known value of the flags, every time step calls the gas ionisation exactly until
`t_ion` if it is requested, and then the requested photoemission. Missing: other values, which are accepted
(`C102_photo_violated`, `C102_gas_violated`). -/
theorem C102_sources_partial {K : Type} [LinearOrder K] (gasFlag photoFlag : Sel) (tIon tt : K) :
    (photoFlag = .int 0 → primaryCalls gasFlag photoFlag tIon tt = .ok (if gasFlag = .int 1 ∧ tt < tIon then [.gas] else [])) ∧
    (photoFlag = .int 1 → primaryCalls gasFlag photoFlag tIon tt =
      .ok ((if gasFlag = .int 1 ∧ tt < tIon then [.gas] else []) ++ [.photo .beam])) ∧
    (photoFlag = .int 2 ∨ photoFlag = .str "from_file" → primaryCalls gasFlag photoFlag tIon tt =
      .ok ((if gasFlag = .int 1 ∧ tt < tIon then [.gas] else []) ++ [.photo .fromFile])) ∧
    (photoFlag = .int 3 ∨ photoFlag = .str "per_segment" → primaryCalls gasFlag photoFlag tIon tt =
      .ok ((if gasFlag = .int 1 ∧ tt < tIon then [.gas] else []) ++ [.photo .perSegment])) := by
  have hg : ((if tt < tIon ∧ gasFlag = .int 1 then (if gasBuilt gasFlag then .ok [SrcCall.gas] else .error InitErr.attribute) else .ok []) :
      Except InitErr (List SrcCall)) = .ok (if gasFlag = .int 1 ∧ tt < tIon then [.gas] else []) := by
    by_cases h : tt < tIon ∧ gasFlag = .int 1
    · rw [if_pos h, if_pos (And.symm h)]
      simp [gasBuilt, h.2]
    · rw [if_neg h, if_neg (fun hh => h (And.symm hh))]
  unfold primaryCalls
  rw [hg]
  refine ⟨fun h => ?_, fun h => ?_, fun h => ?_, fun h => ?_⟩
  · subst h; rfl
  · subst h; rfl
  · rcases h with h | h <;> subst h <;> rfl
  · rcases h with h | h <;> subst h <;> rfl

example : primaryCalls (.int 1) (.str "per_segment") (10 : ℚ) 3 = .ok [.gas, .photo .perSegment] ∧
    primaryCalls (.int 1) (.int 0) (10 : ℚ) 10 = .ok [] := by decide +kernel

/-- **C102** is violated: any other value of `photoem_flag` is accepted at start-up and stops the first time step. -/
theorem C102_photo_violated {K : Type} [LinearOrder K] (gasFlag photoFlag : Sel) (tIon tt : K) (h0 : photoFlag ≠ .int 0)
    (h : photoBuilt photoFlag = none) : primaryCalls gasFlag photoFlag tIon tt = .error .attribute := by
  unfold primaryCalls
  by_cases hc : tt < tIon ∧ gasFlag = .int 1
  · rw [if_pos hc]
    simp [gasBuilt, hc.2, h0, h]
  · rw [if_neg hc]
    simp [h0, h]

example : photoBuilt (.str "from_segments") = none ∧ photoBuilt (.int 4) = none := by decide +kernel

/-- **C102** is violated: with any `gas_ion_flag` other than 1, and with the default `t_ion = -1` at all times, there is no
ionisation and no message. -/
theorem C102_gas_violated {K : Type} [Field K] [LinearOrder K] [IsStrictOrderedRing K] (gasFlag : Sel) (tt : K) :
    (∀ tIon, gasFlag ≠ .int 1 → primaryCalls gasFlag (.int 0) tIon tt = .ok []) ∧
    (0 ≤ tt → primaryCalls (.int 1) (.int 0) (-1) tt = .ok []) := by
  refine ⟨fun tIon h => ?_, fun h => ?_⟩
  · rw [(C102_sources_partial gasFlag (.int 0) tIon tt).1 rfl, if_neg (fun hh => h hh.1)]
  · rw [(C102_sources_partial (.int 1) (.int 0) (-1) tt).1 rfl, if_neg (fun hh => by linarith [hh.2])]

/-- **C102**, lifetime histogram as far as it holds: if the cloud has the settings of the main files, the construction gives all
parts of the cloud these settings and no time step fails. Missing: clouds with settings of their own
(`C102_lifetime_violated`). -/
theorem C102_lifetime_partial (main : LifeSet) (p : LifeParts) (h : lifeParts main main = .ok p) :
    p.mp = main.on ∧ p.manager = main.on ∧ p.saver = main.on ∧ p.nBin = main.nBin ∧ p.max = main.max ∧
    (main.on = true → p.nBin.isSome ∧ p.max.isSome) ∧ ∀ impacts due, p.step impacts due = .ok () := by
  unfold lifeParts at h
  by_cases hc : main.on = true ∧ (main.nBin = none ∨ main.max = none ∨ main.dt = none)
  · rw [if_pos hc] at h; cases h
  · rw [if_neg hc] at h
    cases h
    refine ⟨rfl, rfl, rfl, rfl, rfl, fun hon => ?_, fun impacts due => ?_⟩
    · push Not at hc
      obtain ⟨a, b, -⟩ := hc hon
      exact ⟨Option.isSome_iff_ne_none.2 a, Option.isSome_iff_ne_none.2 b⟩
    · unfold LifeParts.step
      cases main.on <;> cases impacts <;> cases due <;> rfl

example : ∃ p, lifeParts ⟨true, some 100, some 1, some 1⟩ ⟨true, some 100, some 1, some 1⟩ = .ok p ∧ p.manager = true := ⟨_, rfl, rfl⟩

/-- **C102** is violated: a cloud that switches the lifetime histogram off stops at its first impact if the main files switch
it on; a cloud that switches it on stops at the first saving if the main files do not; numbers of bins of the cloud are
ignored. -/
theorem C102_lifetime_violated :
    (∀ main cloud p, lifeParts main cloud = .ok p → main.on = true → cloud.on = false → ∀ due, p.step true due = .error .attribute) ∧
    (∀ main cloud p, lifeParts main cloud = .ok p → main.on = false → cloud.on = true → ∀ impacts, p.step impacts true = .error .attribute) ∧
    (∀ main cloud p, lifeParts main cloud = .ok p → p.nBin = main.nBin) ∧
    (∃ main cloud p, lifeParts main cloud = .ok p ∧ main.on = true ∧ cloud.on = false) ∧
    (∃ main cloud p, lifeParts main cloud = .ok p ∧ main.on = false ∧ cloud.on = true) := by
  have key : ∀ main cloud p, lifeParts main cloud = .ok p → p = ⟨cloud.on, main.on, main.nBin, main.max, cloud.on⟩ := by
    intro main cloud p h
    unfold lifeParts at h
    split at h
    · cases h
    · exact (Except.ok.inj h).symm
  refine ⟨fun main cloud p h h1 h2 due => ?_, fun main cloud p h h1 h2 impacts => ?_, fun main cloud p h => ?_,
    ⟨⟨true, some 100, some 1, some 1⟩, ⟨false, none, none, none⟩, _, rfl, rfl, rfl⟩,
    ⟨⟨false, none, none, none⟩, ⟨true, some 100, some 1, some 1⟩, _, rfl, rfl, rfl⟩⟩
  · rw [key _ _ _ h]
    simp [LifeParts.step, h1, h2]
  · rw [key _ _ _ h]
    simp [LifeParts.step, h1, h2]
  · rw [key _ _ _ h]

/-! ## C103 -/

section

variable {K : Type} [Field K] [LinearOrder K] [IsStrictOrderedRing K] [FloorRing K]

/-- **C103** as far as it holds: the cloud starts with the requested uniform electrons, then those of the density, then the
macroparticles of the file with their positions, velocities and sizes; the first two kinds are inside the chamber and have the
reference size. The arrays must not be full. Missing: nothing keeps the macroparticles of the file inside
(`C103_violated`). -/
theorem C103_composition_partial (nMax : ℕ) (ref0 factSplit factClean : K) (hr : 0 < ref0) (lifetime : Bool) (sq : K → K)
    (absCharge mass : K) (outside : K → K → Bool) (xAper yAper : K) (o : InitPop K) (d1 d2 : UniDraws K) (s' : MPs K)
    (hd1 : 0 ≤ o.nel) (hu : 0 ≤ d1.u)
    (hrx : (o.rUnif.xMin.getD (-xAper)) ≤ o.rUnif.xMax.getD xAper) (hry : (o.rUnif.yMin.getD (-yAper)) ≤ o.rUnif.yMax.getD yAper)
    (hx0 : ∀ i, InUnit (d1.x0 i)) (hy0 : ∀ i, InUnit (d1.y0 i)) (hrd : ∀ q ∈ d1.rounds, ∀ i, InUnit (q.1 i) ∧ InUnit (q.2 i))
    (hfile : ∀ f, o.file = some f → ∀ g, (f.data g).length = f.n)
    (hok : initialMPs sq absCharge mass outside xAper yAper o d1 d2 (MPs.init nMax ref0 factSplit factClean lifetime) = .ok s')
    (hroom : s'.nmp < nMax) :
    ∃ uni den fil : List (Particle K), s'.live = uni ++ den ++ fil ∧
      (o.unif = false → uni = []) ∧ (o.unif = true → (uni.length : ℤ) = roundedCount (o.nel / ref0) d1.u ∧ |totalCharge uni - o.nel| < ref0) ∧
      (o.dens = false → den = []) ∧
      (o.dens = true → den.map (fun p => (p .x, p .y)) =
        ((List.range (roundedCount (o.nEle * ((o.rDens.xMax.getD xAper - o.rDens.xMin.getD (-xAper)) *
          (o.rDens.yMax.getD yAper - o.rDens.yMin.getD (-yAper))) / ref0) d2.u).toNat).map
          (fun i => (o.rDens.xMin.getD (-xAper) + (o.rDens.xMax.getD xAper - o.rDens.xMin.getD (-xAper)) * d2.x0 i,
            o.rDens.yMin.getD (-yAper) + (o.rDens.yMax.getD yAper - o.rDens.yMin.getD (-yAper)) * d2.y0 i))).filter
          (fun q => outside q.1 q.2 = false)) ∧
      (∀ p ∈ uni ++ den, p .nel = ref0 ∧ outside (p .x) (p .y) = false ∧ p .z = 0) ∧
      (∀ p ∈ uni, p .vx = -sq (2 * (o.eUnif / 3) * absCharge / mass) * (d1.rvx - 1 / 2) ∧
        p .vy = -sq (2 * (o.eUnif / 3) * absCharge / mass) * (d1.rvy - 1 / 2) ∧
        p .vz = -sq (2 * (o.eUnif / 3) * absCharge / mass) * (d1.rvz - 1 / 2)) ∧
      (∀ p ∈ den, p .vx = -sq (2 * (o.eDens / 3) * absCharge / mass) * (d2.rvx - 1 / 2) ∧
        p .vy = -sq (2 * (o.eDens / 3) * absCharge / mass) * (d2.rvy - 1 / 2) ∧
        p .vz = -sq (2 * (o.eDens / 3) * absCharge / mass) * (d2.rvz - 1 / 2)) ∧
      (o.file = none → fil = []) ∧
      (∀ f, o.file = some f → fil.length = f.n ∧
        ∀ (i : ℕ) (p : Particle K), fil[i]? = some p → ∀ g, g ≠ Fld.tl → (f.data g)[i]? = some (p g)) := by
  set s := MPs.init nMax ref0 factSplit factClean lifetime with hs
  have hwf : s.WF := (init_wf _ _ _ _ _).1
  have hcap : s.cap = nMax := by simp [hs, MPs.cap, MPs.init]
  have hlive : s.live = [] := by simp [hs, MPs.live, MPs.init]
  have hnmp : s.nmp = 0 := rfl
  unfold initialMPs at hok
  split at hok
  · cases hok
  next s1 hs1 =>
  split at hok
  · cases hok
  next s2 hs2 =>
  -- the numbers of macroparticles grow
  have hm3 : s2.nmp ≤ s'.nmp := by
    cases hf : o.file with
    | none => rw [hf] at hok; cases hok; exact le_rfl
    | some f =>
      rw [hf] at hok
      dsimp only at hok
      rw [addDict_eq] at hok
      have := (addNew_sameSizes _ _ _ _ hok).2
      omega
  have hm2 : s1.nmp ≤ s2.nmp := by
    by_cases hd : o.dens = true
    · rw [if_pos hd] at hs2
      unfold MPs.addDensity at hs2
      dsimp only at hs2
      split at hs2
      · cases hs2
      · split at hs2
        · cases hs2
        · cases hs2
          exact Nat.le_add_right _ _
    · rw [if_neg hd] at hs2
      cases hs2
      exact le_rfl
  have hroom0 : s.nmp < s.cap := by omega
  -- first part
  have hp1 : s1.WF ∧ s1.cap = nMax ∧ s1.ref = ref0 ∧ ∃ uni : List (Particle K), s1.live = uni ∧ (o.unif = false → uni = []) ∧
      (o.unif = true → (uni.length : ℤ) = roundedCount (o.nel / ref0) d1.u ∧ |totalCharge uni - o.nel| < ref0) ∧
      ∀ p ∈ uni, (p .nel = ref0 ∧ outside (p .x) (p .y) = false ∧ p .z = 0) ∧
        p .vx = -sq (2 * (o.eUnif / 3) * absCharge / mass) * (d1.rvx - 1 / 2) ∧
        p .vy = -sq (2 * (o.eUnif / 3) * absCharge / mass) * (d1.rvy - 1 / 2) ∧
        p .vz = -sq (2 * (o.eUnif / 3) * absCharge / mass) * (d1.rvz - 1 / 2) := by
    by_cases hu1 : o.unif = true
    · rw [if_pos hu1] at hs1
      obtain ⟨new, h1, h2, h3, h4⟩ := C07_uniform_distrib s s1 hwf hroom0 hr outside
        (Rect.ofOpt xAper yAper o.rUnif.xMax o.rUnif.xMin o.rUnif.yMax o.rUnif.yMin) hrx hry _ o.nel hd1 d1 hu hx0 hy0 hrd hs1
      obtain ⟨hw, hc⟩ := addUniform_wf s s1 hwf hroom0 _ _ _ _ _ hs1
      rw [hlive, List.nil_append] at h1
      refine ⟨hw, by rw [hc, hcap], ?_, new, h1, fun h => (by rw [h] at hu1; cases hu1), fun _ => ⟨h2, h4⟩, fun p hp => ?_⟩
      · exact (addUniform_sameSizes s s1 _ _ _ _ _ hs1).ref
      · obtain ⟨a1, a2, a3, a4, a5, a6, -⟩ := h3 p hp
        exact ⟨⟨a1, a2, a3⟩, a4, a5, a6⟩
    · rw [if_neg hu1] at hs1
      cases hs1
      exact ⟨hwf, hcap, rfl, [], hlive, fun _ => rfl, fun h => absurd h hu1, by simp⟩
  obtain ⟨hw1, hc1, hr1, uni, hl1, hu0, hu1, hu2⟩ := hp1
  have hp2 : s2.WF ∧ s2.cap = nMax ∧ ∃ den : List (Particle K), s2.live = uni ++ den ∧ (o.dens = false → den = []) ∧
      (o.dens = true → den.map (fun p => (p .x, p .y)) =
        ((List.range (roundedCount (o.nEle * ((o.rDens.xMax.getD xAper - o.rDens.xMin.getD (-xAper)) *
          (o.rDens.yMax.getD yAper - o.rDens.yMin.getD (-yAper))) / ref0) d2.u).toNat).map
          (fun i => (o.rDens.xMin.getD (-xAper) + (o.rDens.xMax.getD xAper - o.rDens.xMin.getD (-xAper)) * d2.x0 i,
            o.rDens.yMin.getD (-yAper) + (o.rDens.yMax.getD yAper - o.rDens.yMin.getD (-yAper)) * d2.y0 i))).filter
          (fun q => outside q.1 q.2 = false)) ∧
      ∀ p ∈ den, (p .nel = ref0 ∧ outside (p .x) (p .y) = false ∧ p .z = 0) ∧
        p .vx = -sq (2 * (o.eDens / 3) * absCharge / mass) * (d2.rvx - 1 / 2) ∧
        p .vy = -sq (2 * (o.eDens / 3) * absCharge / mass) * (d2.rvy - 1 / 2) ∧
        p .vz = -sq (2 * (o.eDens / 3) * absCharge / mass) * (d2.rvz - 1 / 2) := by
    by_cases hd : o.dens = true
    · rw [if_pos hd] at hs2
      obtain ⟨den, h1, h2, h3⟩ := C69_uniform_density s1 s2 hw1 (by omega) outside
        (Rect.ofOpt xAper yAper o.rDens.xMax o.rDens.xMin o.rDens.yMax o.rDens.yMin) _ o.nEle d2 hs2
      obtain ⟨hw, hc⟩ := addDensity_wf s1 s2 hw1 (by omega) _ _ _ _ _ hs2
      rw [hl1] at h1
      rw [hr1] at h2
      refine ⟨hw, by rw [hc, hc1], den, h1, fun h => (by rw [h] at hd; cases hd), fun _ => h2, fun p hp => ?_⟩
      obtain ⟨a1, a2, -, a4, a5, a6⟩ := h3 p hp
      refine ⟨⟨by rw [a1, hr1], ?_, a2⟩, a4, a5, a6⟩
      have : (p .x, p .y) ∈ den.map (fun p => (p .x, p .y)) := List.mem_map.2 ⟨p, hp, rfl⟩
      rw [h2] at this
      simpa using (List.mem_filter.1 this).2
    · rw [if_neg hd] at hs2
      cases hs2
      exact ⟨hw1, hc1, [], by rw [hl1, List.append_nil], fun _ => rfl, fun h => absurd h hd, by simp⟩
  obtain ⟨hw2, hc2, den, hl2, hd0, hd1', hd2⟩ := hp2
  have hin : ∀ p ∈ uni ++ den, p .nel = ref0 ∧ outside (p .x) (p .y) = false ∧ p .z = 0 := by
    intro p hp
    rcases List.mem_append.1 hp with h | h
    · exact (hu2 p h).1
    · exact (hd2 p h).1
  have hvu := fun p hp => (hu2 p hp).2
  have hvd := fun p hp => (hd2 p hp).2
  cases hf : o.file with
  | none =>
    rw [hf] at hok
    cases hok
    exact ⟨uni, den, [], by rw [hl2, List.append_nil], hu0, hu1, hd0, hd1', hin, hvu, hvd, fun _ => rfl, fun f h => by cases h⟩
  | some f =>
    rw [hf] at hok
    dsimp only at hok
    rw [addDict_eq] at hok
    have hfl := hfile f hf
    obtain ⟨h1, -⟩ := addNew_live s2 s' hw2 f.n (dictSrc f) (f.data .x) rfl (hfl .x) (fun _ => by omega) (by
      intro g _
      cases g
      case tl =>
        unfold dictSrc
        cases f.hasTl <;> simp [Src.Fits, hfl]
      all_goals simp [dictSrc, Src.Fits, hfl]) hok
    refine ⟨uni, den, _, by rw [h1, hl2], hu0, hu1, hd0, hd1', hin, hvu, hvd, (fun h => by cases h), fun f' hf' => ?_⟩
    cases hf'
    refine ⟨by rw [srcParticles_length], fun i p hp g hg => ?_⟩
    obtain ⟨hi, rfl⟩ := List.getElem?_eq_some_iff.1 hp
    have hi' : i < f.n := by simpa [srcParticles] using hi
    have hsrc : dictSrc f g = .array (f.data g) := by
      cases g <;> first | rfl | exact absurd rfl hg
    rw [srcParticles_array s2.tracked f.n (dictSrc f) g _ (tracked_main s2 g hg) hsrc i hi' (hfl g)]
    exact List.getElem?_eq_getElem _

end

/-- three macroparticles from a file, one of them outside the chamber -/
def exFile : MPDict ℚ := ⟨3, fun f => match f with | .x => [0, 1, 5] | .y => [0, 0, 0] | .nel => [2, 4, 6] | _ => [0, 0, 0], false⟩

def exPop : InitPop ℚ := ⟨true, 9, 1, ⟨none, none, none, none⟩, true, 2, 0, ⟨none, some 0, none, none⟩, some exFile⟩

/-- four uniform, two from the density, three from the file -/
example : ∃ s', initialMPs (fun x => x) (1 : ℚ) 1 (fun x y => decide (1 < x ^ 2 + y ^ 2)) 1 1 exPop toyDraws toyDraws
    (MPs.init 20 (2 : ℚ) 3 (1 / 2) false) = .ok s' ∧
    s'.live.map (fun p : Particle ℚ => p .nel) = [2, 2, 2, 2, 2, 2, 2, 4, 6] :=
  exists_ok (by decide +kernel)

/-- **C103** is violated: a macroparticle of the file that is outside the chamber is taken. -/
theorem C103_violated : ∃ s', initialMPs (fun x => x) (1 : ℚ) 1 (fun x y => decide (1 < x ^ 2 + y ^ 2)) 1 1
    { exPop with unif := false, dens := false } toyDraws toyDraws (MPs.init 20 (2 : ℚ) 3 (1 / 2) false) = .ok s' ∧
    (∃ p ∈ s'.live.map (fun p : Particle ℚ => (p .x, p .y)), 1 < p.1 ^ 2 + p.2 ^ 2) :=
  exists_ok (by decide +kernel)

/-! ## C104 -/

/-- kinetic energy in eV, `1/2 m v^2 / |q|` -/
def kinEV {K : Type} [Field K] (absCharge mass vx vy vz : K) : K := 1 / 2 * mass * (vx ^ 2 + vy ^ 2 + vz ^ 2) / absCharge

/-- The energy of an electron whose velocity components are `v0 (r - 1/2)`. -/
theorem initSpeed_energy {K : Type} [Field K] [LinearOrder K] [IsStrictOrderedRing K] (sq : K → K) (q m e : K) (hq : 0 < q) (hm : 0 < m)
    (hsq : sq (2 * (e / 3) * q / m) ^ 2 = 2 * (e / 3) * q / m) (a b c : K) :
    kinEV q m (initSpeed sq e q m * (a - 1 / 2)) (initSpeed sq e q m * (b - 1 / 2)) (initSpeed sq e q m * (c - 1 / 2)) =
      e / 3 * ((a - 1 / 2) ^ 2 + (b - 1 / 2) ^ 2 + (c - 1 / 2) ^ 2) := by
  unfold kinEV initSpeed
  have : (-sq (2 * (e / 3) * q / m) * (a - 1 / 2)) ^ 2 + (-sq (2 * (e / 3) * q / m) * (b - 1 / 2)) ^ 2 +
      (-sq (2 * (e / 3) * q / m) * (c - 1 / 2)) ^ 2 =
      sq (2 * (e / 3) * q / m) ^ 2 * ((a - 1 / 2) ^ 2 + (b - 1 / 2) ^ 2 + (c - 1 / 2) ^ 2) := by ring
  rw [this, hsq]
  field_simp

/-- **C104** as far as it holds: with the initial energy 0 the electrons are at rest, and no electron of the initial distributions or
of the gas has more than a quarter of the given energy. Missing: the given energy itself (`C104_violated`). -/
theorem C104_bound_partial {K : Type} [Field K] [LinearOrder K] [IsStrictOrderedRing K] (sq : K → K) (q m e : K) (hq : 0 < q) (hm : 0 < m)
    (he : 0 ≤ e) (hsq : sq (2 * (e / 3) * q / m) ^ 2 = 2 * (e / 3) * q / m) (a b c : K) (ha : InUnit a) (hb : InUnit b) (hc : InUnit c) :
    kinEV q m (initSpeed sq e q m * (a - 1 / 2)) (initSpeed sq e q m * (b - 1 / 2)) (initSpeed sq e q m * (c - 1 / 2)) ≤ e / 4 ∧
    (e = 0 → kinEV q m (initSpeed sq e q m * (a - 1 / 2)) (initSpeed sq e q m * (b - 1 / 2)) (initSpeed sq e q m * (c - 1 / 2)) = 0) := by
  rw [initSpeed_energy sq q m e hq hm hsq]
  have key : ∀ x : K, InUnit x → (x - 1 / 2) ^ 2 ≤ 1 / 4 := by
    intro x hx
    obtain ⟨h1, h2⟩ := hx
    nlinarith
  have := key a ha
  have := key b hb
  have := key c hc
  refine ⟨?_, fun h => by rw [h]; ring⟩
  have h3 : (a - 1 / 2) ^ 2 + (b - 1 / 2) ^ 2 + (c - 1 / 2) ^ 2 ≤ 3 / 4 := by linarith
  have := mul_le_mul_of_nonneg_left h3 (by positivity : 0 ≤ e / 3)
  linarith

/-- **C104** is violated: averaged over the three random numbers, the energy of an electron is a twelfth of the given one. -/
theorem C104_violated (q m e : ℝ) (hq : 0 < q) (hm : 0 < m) (he : 0 ≤ e) :
    ∫ a in (0 : ℝ)..1, ∫ b in (0 : ℝ)..1, ∫ c in (0 : ℝ)..1,
      kinEV q m (initSpeed Real.sqrt e q m * (a - 1 / 2)) (initSpeed Real.sqrt e q m * (b - 1 / 2)) (initSpeed Real.sqrt e q m * (c - 1 / 2))
      = e / 12 := by
  have hsq : Real.sqrt (2 * (e / 3) * q / m) ^ 2 = 2 * (e / 3) * q / m := Real.sq_sqrt (by positivity)
  simp only [initSpeed_energy Real.sqrt q m e hq hm hsq]
  have h1 : ∀ k : ℝ, ∫ c in (0 : ℝ)..1, e / 3 * (k + (c - 1 / 2) ^ 2) = e / 3 * (k + 1 / 12) := by
    intro k
    rw [intervalIntegral.integral_const_mul, intervalIntegral.integral_add (by simp) (Continuous.intervalIntegrable (by fun_prop) _ _),
      intervalIntegral.integral_const, intervalIntegral.integral_comp_sub_right (fun x => x ^ 2), integral_pow]
    norm_num
  have h2 : ∀ k : ℝ, ∫ b in (0 : ℝ)..1, e / 3 * (k + (b - 1 / 2) ^ 2 + 1 / 12) = e / 3 * (k + 1 / 12 + 1 / 12) := by
    intro k
    have : ∀ b : ℝ, e / 3 * (k + (b - 1 / 2) ^ 2 + 1 / 12) = e / 3 * ((k + 1 / 12) + (b - 1 / 2) ^ 2) := fun b => by ring
    simp only [this, h1]
  simp only [h1, h2]
  have : ∀ a : ℝ, e / 3 * ((a - 1 / 2) ^ 2 + 1 / 12 + 1 / 12) = e / 3 * ((1 / 12 + 1 / 12) + (a - 1 / 2) ^ 2) := fun b => by ring
  simp only [this, h1]
  ring

end PyECLOUD
