import Verif.Spec.InitCalls

/-! # Settings reach the components they govern (C114, C115) -/

namespace PyECLOUD

/-- parameters that do not receive the setting of their cloud -/
def notFromCloud : List (Part × String) := [
  (.impact, "Nbin_En_hist"), (.impact, "En_hist_max"), (.impact, "Nbin_lifetime_hist"), (.impact, "lifetime_hist_max"),
  (.impact, "flag_lifetime_hist"), (.impact, "cos_angle_width"), (.impact, "flag_cos_angle_hist"), (.multipole, "N_sub_steps")]

theorem received_eq {V : Type} (sg : PySig) (c : PyCall) (st : Settings V) (param : String) (a : ArgSrc)
    (h : ((bindCall sg c).map (fun b => b.lookup param)).toOption = some (some a)) :
    received st sg c param = .ok (some (a.eval st)) := by
  unfold received
  cases hb : bindCall sg c with
  | error e => rw [hb] at h; exact absurd h (by simp [Except.map, Except.toOption])
  | ok b =>
    rw [hb] at h
    simp only [Except.map, Except.toOption, Option.some.injEq] at h
    show Except.ok ((b.lookup param).map (ArgSrc.eval st)) = _
    rw [h]
    rfl

theorem received_main {V : Type} (sg : PySig) (c : PyCall) (st : Settings V) (param q : String)
    (h : ((bindCall sg c).map (fun b => b.lookup param)).toOption = some (some (.main q))) :
    received st sg c param = .ok (some (st.main q)) := received_eq sg c st param _ h

theorem received_cloud {V : Type} (sg : PySig) (c : PyCall) (st : Settings V) (param q : String)
    (h : ((bindCall sg c).map (fun b => b.lookup param)).toOption = some (some (.cloud q))) :
    received st sg c param = .ok (some (st.cloud q)) := received_eq sg c st param _ h

theorem received_beam {V : Type} (sg : PySig) (c : PyCall) (st : Settings V) (param q : String)
    (h : ((bindCall sg c).map (fun b => b.lookup param)).toOption = some (some (.beam q))) :
    received st sg c param = .ok (some (st.beam q)) := received_eq sg c st param _ h

theorem received_secBeam {V : Type} (sg : PySig) (c : PyCall) (st : Settings V) (param q : String)
    (h : ((bindCall sg c).map (fun b => b.lookup param)).toOption = some (some (.secBeam q))) :
    received st sg c param = .ok (some (st.secBeam q)) := received_eq sg c st param _ h

theorem received_expr {V : Type} (sg : PySig) (c : PyCall) (st : Settings V) (param q : String)
    (h : ((bindCall sg c).map (fun b => b.lookup param)).toOption = some (some (.expr q))) :
    received st sg c param = .ok (some (st.val q)) := received_eq sg c st param _ h

/-- the expression bound to a parameter -/
def Part.arg (p : Part) (e0 s : Bool) (param : String) : Option (Option ArgSrc) :=
  ((bindCall p.sig (p.call e0 s)).map (fun b => b.lookup param)).toOption

/-- `E0` may be set for this component: the three models without this parameter refuse it (C101) -/
def Part.okE0 (p : Part) (e0 : Bool) : Prop := e0 = true → p ∉ [Part.flatLow, .seyFile, .fp]

instance (p : Part) (e0 : Bool) : Decidable (p.okE0 e0) := by unfold Part.okE0; infer_instance

theorem governed_args : ∀ g ∈ governed, ∀ e0 s : Bool, g.1.okE0 e0 → (g.2.1 = "E0" → e0 = true) → (g.2.1 = "s" → s = true) →
    (g.1, g.2.1) ∉ notFromCloud → g.1.arg e0 s g.2.1 = some (some (.cloud g.2.2)) := by decide +kernel

theorem ignored_args : ∀ g ∈ governed, ∀ e0 s : Bool, g.1.okE0 e0 → (g.1, g.2.1) ∈ notFromCloud →
    g.1.arg e0 s g.2.1 = some (some (if g.2.1 = "flag_cos_angle_hist" then .expr "True" else .main g.2.2)) := by
  decide +kernel

theorem bindPos_names (sg : PySig) (l : List ArgSrc) (r : List (String × ArgSrc) × PySig) (h : bindPos sg l = .ok r) :
    r.1.map Prod.fst ++ r.2.map Prod.fst = sg.map Prod.fst := by
  induction sg generalizing l r with
  | nil =>
    cases l with
    | nil => cases h; rfl
    | cons a l => cases h
  | cons p sg ih =>
    obtain ⟨n, d⟩ := p
    cases l with
    | nil => cases h; rfl
    | cons a l =>
      simp only [bindPos] at h
      cases hr : bindPos sg l with
      | error e =>
        rw [hr] at h
        cases h
      | ok q =>
        rw [hr] at h
        cases h
        simp [ih l q hr]

theorem bindRest_names (kw : List (String × ArgSrc)) (sg : PySig) (r : List (String × ArgSrc)) (h : bindRest kw sg = .ok r) :
    r.map Prod.fst = sg.map Prod.fst := by
  induction sg generalizing r with
  | nil => cases h; rfl
  | cons p sg ih =>
    obtain ⟨n, d⟩ := p
    simp only [bindRest] at h
    cases hr : bindRest kw sg with
    | error e =>
      rw [hr] at h
      split at h <;> cases h
    | ok q =>
      rw [hr] at h
      have := ih q hr
      split at h <;> cases h <;> simp [this]

/-- **C114, calls.** A call that succeeds gives a value to every parameter once, in the order of the signature, and names no keyword twice
and none that is not a parameter left after the positional arguments. -/
theorem C114_binding (sg : PySig) (c : PyCall) (b : List (String × ArgSrc)) (h : bindCall sg c = .ok b) :
    b.map Prod.fst = sg.map Prod.fst ∧ (c.kw.map Prod.fst).Nodup ∧ ∀ k ∈ c.kw.map Prod.fst, k ∈ sg.map Prod.fst := by
  unfold bindCall at h
  cases hp : bindPos sg c.pos with
  | error e =>
    rw [hp] at h
    cases h
  | ok r =>
    rw [hp] at h
    change (if _ then _ else _) = _ at h
    have hn := bindPos_names sg c.pos r hp
    split at h
    · next hc =>
      simp only [Bool.and_eq_true, decide_eq_true_eq, List.all_eq_true, List.any_eq_true, beq_iff_eq] at hc
      cases hq : bindRest c.kw r.2 with
      | error e =>
        rw [hq] at h
        cases h
      | ok q =>
        rw [hq] at h
        cases h
        refine ⟨?_, hc.2, ?_⟩
        · rw [List.map_append, bindRest_names c.kw r.2 q hq, hn]
        · intro k hk
          obtain ⟨p, hp, rfl⟩ := List.mem_map.1 hk
          obtain ⟨y, hy, e⟩ := hc.1 p hp
          rw [← hn, List.mem_append]
          right
          exact List.mem_map.2 ⟨y, hy, e⟩
    · cases h

theorem bindPos_vals (sg : PySig) (l : List ArgSrc) (r : List (String × ArgSrc) × PySig) (h : bindPos sg l = .ok r) :
    l.length ≤ sg.length ∧ r.1 = List.zipWith (fun p a => (p.1, a)) sg l ∧ r.2 = sg.drop l.length := by
  induction sg generalizing l r with
  | nil =>
    cases l with
    | nil => cases h; exact ⟨le_rfl, rfl, rfl⟩
    | cons a l => cases h
  | cons p sg ih =>
    obtain ⟨n, d⟩ := p
    cases l with
    | nil => cases h; exact ⟨Nat.zero_le _, rfl, rfl⟩
    | cons a l =>
      simp only [bindPos] at h
      cases hr : bindPos sg l with
      | error e =>
        rw [hr] at h
        cases h
      | ok q =>
        rw [hr] at h
        cases h
        obtain ⟨h1, h2, h3⟩ := ih l q hr
        exact ⟨by simpa using h1, by simp [h2], by simpa using h3⟩

theorem bindRest_vals (kw : List (String × ArgSrc)) (sg : PySig) (r : List (String × ArgSrc)) (h : bindRest kw sg = .ok r)
    (i : ℕ) (n : String) (d : Option String) (hi : sg[i]? = some (n, d)) :
    ∃ v, r[i]? = some (n, v) ∧ (kw.lookup n = some v ∨ kw.lookup n = none ∧ ∃ e, d = some e ∧ v = .expr e) := by
  induction sg generalizing r i with
  | nil => simp at hi
  | cons p sg ih =>
    obtain ⟨n', d'⟩ := p
    simp only [bindRest] at h
    cases hr : bindRest kw sg with
    | error e =>
      rw [hr] at h
      split at h <;> cases h
    | ok q =>
      rw [hr] at h
      cases i with
      | zero =>
        simp only [List.getElem?_cons_zero, Option.some.injEq, Prod.mk.injEq] at hi
        obtain ⟨rfl, rfl⟩ := hi
        split at h
        · next a ha => cases h; exact ⟨a, rfl, .inl ha⟩
        · next e ha => cases h; exact ⟨_, rfl, .inr ⟨ha, e, rfl, rfl⟩⟩
        · cases h
      | succ i =>
        rw [List.getElem?_cons_succ] at hi
        obtain ⟨v, hv, h2⟩ := ih q hr i hi
        refine ⟨v, ?_, h2⟩
        split at h <;> cases h <;> simpa using hv

/-- **C114, values of a call.** In a call that succeeds there are no more positional arguments than parameters, and each parameter has the
positional argument at its place, or, after these, the keyword argument of its name, or else its default. A parameter without all
three is refused. -/
theorem C114_binding_values (sg : PySig) (c : PyCall) (b : List (String × ArgSrc)) (h : bindCall sg c = .ok b) :
    c.pos.length ≤ sg.length ∧ ∀ (i : ℕ) (n : String) (d : Option String), sg[i]? = some (n, d) → ∃ v, b[i]? = some (n, v) ∧
      (c.pos[i]? = some v ∨ c.pos.length ≤ i ∧ (c.kw.lookup n = some v ∨ c.kw.lookup n = none ∧ ∃ e, d = some e ∧ v = .expr e)) := by
  unfold bindCall at h
  cases hp : bindPos sg c.pos with
  | error e =>
    rw [hp] at h
    cases h
  | ok r =>
    rw [hp] at h
    change (if _ then _ else _) = _ at h
    obtain ⟨h1, h2, h3⟩ := bindPos_vals sg c.pos r hp
    split at h
    · cases hq : bindRest c.kw r.2 with
      | error e =>
        rw [hq] at h
        cases h
      | ok q =>
        rw [hq] at h
        cases h
        refine ⟨h1, fun i n d hi => ?_⟩
        have hl : r.1.length = c.pos.length := by rw [h2, List.length_zipWith]; omega
        by_cases hc : i < c.pos.length
        · refine ⟨c.pos[i], ?_, .inl (List.getElem?_eq_getElem hc)⟩
          rw [List.getElem?_append_left (by omega), h2, List.getElem?_zipWith, hi, List.getElem?_eq_getElem hc]
        · have hi' : r.2[i - c.pos.length]? = some (n, d) := by
            rw [h3, List.getElem?_drop, ← hi]
            congr 1
            omega
          obtain ⟨v, hv, hk⟩ := bindRest_vals c.kw r.2 q hq _ n d hi'
          refine ⟨v, ?_, .inr ⟨by omega, hk⟩⟩
          rw [List.getElem?_append_right (by omega), hl, hv]
    · cases h

/-- A positional argument, a keyword and a default; and a call that lacks an argument -/
example : (∃ b, bindCall [("a", none), ("b", none), ("c", some "None")] ⟨[.main "x"], [("b", .main "y")]⟩ = .ok b ∧
      b = [("a", .main "x"), ("b", .main "y"), ("c", .expr "None")]) ∧
    bindCall [("a", none), ("b", none)] ⟨[.main "x"], []⟩ = .error .typeError := ⟨⟨_, rfl, by decide +kernel⟩, by decide +kernel⟩

/-- a call with a keyword given twice is refused, and so is one with an unknown keyword; the call of the saver is not -/
example : bindCall [("a", none), ("b", some "None")] ⟨[], [("a", .main "x"), ("a", .main "y")]⟩ = .error .typeError ∧
    bindCall [("a", none), ("b", some "None")] ⟨[.main "x"], [("c", .main "y")]⟩ = .error .typeError ∧
    bindCall [("a", none), ("b", some "None")] ⟨[.main "x"], []⟩ = .ok [("a", .main "x"), ("b", .expr "None")] := by decide +kernel

/-- **C114, partial.** For all settings of the main input and of the cloud: every parameter of a component that is governed
by a setting allowed in a cloud file receives the value of the cloud (which is the one of its file or, if it is not given
there, the main one), except the eight parameters of `notFromCloud` (violated below). `E0` and `s_param` when given. -/
theorem C114_cloud_settings_partial {V : Type} (st : Settings V) (g : Part × String × String) (hg : g ∈ governed)
    (e0 s : Bool) (h0 : g.1.okE0 e0) (h1 : g.2.1 = "E0" → e0 = true) (h2 : g.2.1 = "s" → s = true)
    (hn : (g.1, g.2.1) ∉ notFromCloud) : g.1.gets e0 s st g.2.1 = .ok (some (st.cloud g.2.2)) :=
  received_eq _ _ st _ _ (governed_args g hg e0 s h0 h1 h2 hn)

/-- **C114, violated.** The binning of the energy and lifetime histograms, the switch of the lifetime histograms and the
width of the angle bins are taken from the main input by the impact management whatever the cloud file says, and so is
the number of substeps of the multipole tracker; the impact management always records angles. -/
theorem C114_ignored_violated {V : Type} (st : Settings V) (e0 s : Bool) :
    Part.impact.gets e0 s st "Nbin_En_hist" = .ok (some (st.main "Nbin_En_hist")) ∧
    Part.impact.gets e0 s st "En_hist_max" = .ok (some (st.main "En_hist_max")) ∧
    Part.impact.gets e0 s st "Nbin_lifetime_hist" = .ok (some (st.main "Nbin_lifetime_hist")) ∧
    Part.impact.gets e0 s st "lifetime_hist_max" = .ok (some (st.main "lifetime_hist_max")) ∧
    Part.impact.gets e0 s st "flag_lifetime_hist" = .ok (some (st.main "flag_lifetime_hist")) ∧
    Part.impact.gets e0 s st "cos_angle_width" = .ok (some (st.main "cos_angle_width")) ∧
    Part.impact.gets e0 s st "flag_cos_angle_hist" = .ok (some (st.val "True")) ∧
    Part.multipole.gets e0 s st "N_sub_steps" = .ok (some (st.main "N_sub_steps")) ∧
    -- while the saver and the other tracker take the one of the cloud
    Part.saver.gets e0 s st "cos_angle_width" = .ok (some (st.cloud "cos_angle_width")) ∧
    Part.saver.gets e0 s st "flag_cos_angle_hist" = .ok (some (st.cloud "flag_cos_angle_hist")) ∧
    Part.boris.gets e0 s st "N_sub_steps" = .ok (some (st.cloud "N_sub_steps")) := by
  refine ⟨received_main _ _ st _ _ (by cases e0 <;> cases s <;> decide +kernel),
    received_main _ _ st _ _ (by cases e0 <;> cases s <;> decide +kernel),
    received_main _ _ st _ _ (by cases e0 <;> cases s <;> decide +kernel),
    received_main _ _ st _ _ (by cases e0 <;> cases s <;> decide +kernel),
    received_main _ _ st _ _ (by cases e0 <;> cases s <;> decide +kernel),
    received_main _ _ st _ _ (by cases e0 <;> cases s <;> decide +kernel),
    received_expr _ _ st _ _ (by cases e0 <;> cases s <;> decide +kernel),
    received_main _ _ st _ _ (by cases e0 <;> cases s <;> decide +kernel),
    received_cloud _ _ st _ _ (by cases e0 <;> cases s <;> decide +kernel),
    received_cloud _ _ st _ _ (by cases e0 <;> cases s <;> decide +kernel),
    received_cloud _ _ st _ _ (by cases e0 <;> cases s <;> decide +kernel)⟩

/-- **C114, the default cloud.** For the cloud described by the main input every governed parameter receives the main
setting, the angle flag of the impact management excepted. -/
theorem C114_main_cloud {V : Type} (st : Settings V) (hm : st.cloud = st.main) (g : Part × String × String)
    (hg : g ∈ governed) (e0 s : Bool) (h0 : g.1.okE0 e0) (h1 : g.2.1 = "E0" → e0 = true) (h2 : g.2.1 = "s" → s = true)
    (hn : (g.1, g.2.1) ≠ (.impact, "flag_cos_angle_hist")) : g.1.gets e0 s st g.2.1 = .ok (some (st.main g.2.2)) := by
  by_cases h : (g.1, g.2.1) ∈ notFromCloud
  · have h3 := received_eq _ _ st _ _ (ignored_args g hg e0 s h0 h)
    have h4 : g.2.1 ≠ "flag_cos_angle_hist" := by
      intro hc
      apply hn
      have h6 : ∀ g ∈ governed, (g.1, g.2.1) ∈ notFromCloud → g.2.1 = "flag_cos_angle_hist" → g.1 = .impact := by
        decide +kernel
      rw [hc, h6 g hg h hc]
    rw [if_neg h4] at h3
    exact h3
  · rw [C114_cloud_settings_partial st g hg e0 s h0 h1 h2 h, hm]

/-- **C114, complete.** Every setting a cloud file may contain governs a parameter of a component or selects
components, with three exceptions: `t_ON_regen_low`, and the two verbosity flags (used for the chamber, which the clouds
share, from the main input). -/
theorem C114_every_setting : ∀ p ∈ cloudTbl.mandatory ++ cloudTbl.optional.map Prod.fst,
    p ∈ governed.map (fun g => g.2.2) ∨ p ∈ selectors ∨ p ∈ ["t_ON_regen_low", "flag_verbose_file", "flag_verbose_stdout"] := by
  decide +kernel

/-- **C114, violated.** `t_ON_regen_low`, which every simulation must specify, has no effect: components built from settings
that differ in it only receive the same values. -/
theorem C114_t_ON_regen_low_violated {V : Type} (st st' : Settings V)
    (h : ∀ p, p ≠ "t_ON_regen_low" → st.main p = st'.main p ∧ st.cloud p = st'.cloud p) (hb : st.beam = st'.beam)
    (hs : st.secBeam = st'.secBeam) (hv : st.val = st'.val) (p : Part) (e0 s : Bool) (param : String) :
    "t_ON_regen_low" ∈ simTbl.mandatory ∧ p.gets e0 s st param = p.gets e0 s st' param := by
  refine ⟨by decide +kernel, ?_⟩
  have key : ∀ (p : Part) (e0 s : Bool) (b : List (String × ArgSrc)), bindCall p.sig (p.call e0 s) = .ok b →
      ∀ a ∈ b, a.2 ≠ .main "t_ON_regen_low" ∧ a.2 ≠ .cloud "t_ON_regen_low" := by
    have h1 : ∀ (p : Part) (e0 s : Bool), ∀ b ∈ (bindCall p.sig (p.call e0 s)).toOption,
        ∀ a ∈ b, a.2 ≠ .main "t_ON_regen_low" ∧ a.2 ≠ .cloud "t_ON_regen_low" := by
      intro p e0 s
      cases p <;> cases e0 <;> cases s <;> decide +kernel
    intro p e0 s b hb'
    exact h1 p e0 s b (by rw [hb']; rfl)
  unfold Part.gets received
  cases hb' : bindCall p.sig (p.call e0 s) with
  | error e => rfl
  | ok b =>
    show Except.ok ((b.lookup param).map (ArgSrc.eval st)) = Except.ok ((b.lookup param).map (ArgSrc.eval st'))
    cases hl : b.lookup param with
    | none => rfl
    | some a =>
      have hmem : (param, a) ∈ b := by
        rw [List.lookup_eq_some_iff] at hl
        obtain ⟨l1, l2, he, _⟩ := hl
        rw [he]; simp
      obtain ⟨k1, k2⟩ := key p e0 s b hb' _ hmem
      have he : a.eval st = a.eval st' := by
        cases a with
        | main q => exact (h q (fun hc => k1 (by rw [hc]))).1
        | cloud q => exact (h q (fun hc => k2 (by rw [hc]))).2
        | beam q => exact congrFun hb q
        | secBeam q => exact congrFun hs q
        | expr e => exact congrFun hv e
      rw [Option.map_some, Option.map_some, he]

/-- **C115, beams.** The main beam object is built from the settings of the main beam file and every secondary
beam object from those of its own file, parameter by parameter; time step, end time and threshold are common; a secondary
beam gets the times of the main beam. -/
theorem C115_beams {V : Type} (st : Settings V) :
    (∀ p ∈ ["flag_bunched_beam", "fact_beam", "coast_dens", "beam_field_file", "b_spac", "sigmaz", "t_offs",
        "filling_pattern_file", "Dh_beam_field", "f_telescope_beam", "target_grid_beam", "N_nodes_discard_beam",
        "N_min_Dh_main_beam", "sigmax", "sigmay", "x_beam_pos", "y_beam_pos", "save_beam_field_file_as", "Nx", "Ny", "nimag"],
      received st sigBeam callBeam p = .ok (some (st.beam p)) ∧
      received st sigBeam callSecBeam p = .ok (some (st.secBeam p))) ∧
    received st sigBeam callBeam "beam_charge" = .ok (some (st.beam "q_part")) ∧
    received st sigBeam callSecBeam "beam_charge" = .ok (some (st.secBeam "q_part")) ∧
    (∀ c ∈ [callBeam, callSecBeam], received st sigBeam c "Dt" = .ok (some (st.main "Dt")) ∧
      received st sigBeam c "t_end" = .ok (some (st.main "t_end")) ∧
      received st sigBeam c "lam_th_beam_field" = .ok (some (st.main "lam_th")) ∧
      received st sigBeam c "chamb" = .ok (some (st.val "chamb"))) ∧
    received st sigBeam callBeam "flag_secodary_beam" = .ok (some (st.val "False")) ∧
    received st sigBeam callBeam "t_primary_beam" = .ok (some (st.val "None")) ∧
    received st sigBeam callSecBeam "flag_secodary_beam" = .ok (some (st.val "True")) ∧
    received st sigBeam callSecBeam "t_primary_beam" = .ok (some (st.val "beamtim.t")) := by
  have e1 : ∀ p ∈ ["flag_bunched_beam", "fact_beam", "coast_dens", "beam_field_file", "b_spac", "sigmaz", "t_offs",
        "filling_pattern_file", "Dh_beam_field", "f_telescope_beam", "target_grid_beam", "N_nodes_discard_beam",
        "N_min_Dh_main_beam", "sigmax", "sigmay", "x_beam_pos", "y_beam_pos", "save_beam_field_file_as", "Nx", "Ny", "nimag"],
      ((bindCall sigBeam callBeam).map (fun b => b.lookup p)).toOption = some (some (.beam p)) ∧
      ((bindCall sigBeam callSecBeam).map (fun b => b.lookup p)).toOption = some (some (.secBeam p)) := by decide +kernel
  refine ⟨fun p hp => ⟨received_eq _ _ st _ _ (e1 p hp).1, received_eq _ _ st _ _ (e1 p hp).2⟩,
    received_beam _ _ st _ _ (by decide +kernel), received_secBeam _ _ st _ _ (by decide +kernel), ?_,
    received_expr _ _ st _ _ (by decide +kernel), received_expr _ _ st _ _ (by decide +kernel),
    received_expr _ _ st _ _ (by decide +kernel), received_expr _ _ st _ _ (by decide +kernel)⟩
  intro c hc
  simp only [List.mem_cons, List.not_mem_nil, or_false] at hc
  rcases hc with rfl | rfl <;>
    exact ⟨received_main _ _ st _ _ (by decide +kernel), received_main _ _ st _ _ (by decide +kernel),
      received_main _ _ st _ _ (by decide +kernel), received_expr _ _ st _ _ (by decide +kernel)⟩

/-- **C115, space charge.** Both kinds of space-charge objects are built from the same main settings, and the
electromagnetic one hands them on unchanged to the electrostatic one it extends. -/
theorem C115_space_charge {V : Type} (st : Settings V) :
    (∀ c ∈ [(sigSc, callSc), (sigScEm, callScEm)],
      ∀ q ∈ [("Dh", "Dh_sc"), ("Dt_sc", "Dt_sc"), ("PyPICmode", "PyPICmode"), ("sparse_solver", "sparse_solver"),
        ("f_telescope", "f_telescope"), ("target_grid", "target_grid"), ("N_nodes_discard", "N_nodes_discard"),
        ("N_min_Dh_main", "N_min_Dh_main"), ("Dh_U_eV", "Dh_electric_energy")],
      received st c.1 c.2 q.1 = .ok (some (st.main q.2))) ∧
    received st sigScEm callScEm "gamma" = .ok (some (st.beam "gamma_rel")) ∧
    (∀ p ∈ sigSc, received st sigSc callScSuper p.1 = .ok (some (st.val p.1)) ∧ p.1 ∈ sigScEm.map Prod.fst) := by
  have e1 : ∀ c ∈ [(sigSc, callSc), (sigScEm, callScEm)],
      ∀ q ∈ [("Dh", "Dh_sc"), ("Dt_sc", "Dt_sc"), ("PyPICmode", "PyPICmode"), ("sparse_solver", "sparse_solver"),
        ("f_telescope", "f_telescope"), ("target_grid", "target_grid"), ("N_nodes_discard", "N_nodes_discard"),
        ("N_min_Dh_main", "N_min_Dh_main"), ("Dh_U_eV", "Dh_electric_energy")],
      ((bindCall c.1 c.2).map (fun b => b.lookup q.1)).toOption = some (some (.main q.2)) := by
    have : (∀ q ∈ [("Dh", "Dh_sc"), ("Dt_sc", "Dt_sc"), ("PyPICmode", "PyPICmode"), ("sparse_solver", "sparse_solver"),
        ("f_telescope", "f_telescope"), ("target_grid", "target_grid"), ("N_nodes_discard", "N_nodes_discard"),
        ("N_min_Dh_main", "N_min_Dh_main"), ("Dh_U_eV", "Dh_electric_energy")],
      ((bindCall sigSc callSc).map (fun b => b.lookup q.1)).toOption = some (some (.main q.2))) ∧
      (∀ q ∈ [("Dh", "Dh_sc"), ("Dt_sc", "Dt_sc"), ("PyPICmode", "PyPICmode"), ("sparse_solver", "sparse_solver"),
        ("f_telescope", "f_telescope"), ("target_grid", "target_grid"), ("N_nodes_discard", "N_nodes_discard"),
        ("N_min_Dh_main", "N_min_Dh_main"), ("Dh_U_eV", "Dh_electric_energy")],
      ((bindCall sigScEm callScEm).map (fun b => b.lookup q.1)).toOption = some (some (.main q.2))) := by
      constructor <;> decide +kernel
    intro c hc
    simp only [List.mem_cons, List.not_mem_nil, or_false] at hc
    rcases hc with rfl | rfl
    · exact this.1
    · exact this.2
  have e2 : ∀ p ∈ sigSc, ((bindCall sigSc callScSuper).map (fun b => b.lookup p.1)).toOption = some (some (.expr p.1)) ∧
      p.1 ∈ sigScEm.map Prod.fst := by decide +kernel
  exact ⟨fun c hc q hq => received_main _ _ st _ _ (e1 c hc q hq), received_beam _ _ st _ _ (by decide +kernel),
    fun p hp => ⟨received_eq _ _ st _ _ (e2 p hp).1, (e2 p hp).2⟩⟩

/-- **C114, trackers.** For all settings: the trackers receive the time step and the settings of the magnetic field of the main input under
the name of the setting: the dipole tracker its time step and the field computed, the strong-field tracker all its arguments, the
Boris tracker time step and field map and the uniform field after replacing `None` by zero, the multipole tracker all its arguments. -/
theorem C114_trackers {V : Type} (st : Settings V) :
    (∀ p ∈ ["Dt", "B0x", "B0y", "B_map_file", "fact_Bmap", "B_zero_thrhld"], received st sigStrong callStrong p = .ok (some (st.main p))) ∧
    (∀ p ∈ ["Dt", "N_sub_steps", "B_multip", "B_skew", "B0x", "B0y", "B0z"], received st sigMultipole callMultipole p = .ok (some (st.main p))) ∧
    (∀ p ∈ ["Dt", "B_map_file", "fact_Bmap"], received st sigBoris callBoris p = .ok (some (st.main p))) ∧
    (∀ p ∈ [("B0x", "temp_B0x"), ("B0y", "temp_B0y"), ("B0z", "temp_B0z")], received st sigBoris callBoris p.1 = .ok (some (st.val p.2))) ∧
    received st sigBoris callBoris "N_sub_steps" = .ok (some (st.cloud "N_sub_steps")) ∧
    received st sigDipole callDipole "Dt" = .ok (some (st.main "Dt")) ∧ received st sigDipole callDipole "B" = .ok (some (st.val "B")) := by
  have e1 : ∀ p ∈ ["Dt", "B0x", "B0y", "B_map_file", "fact_Bmap", "B_zero_thrhld"],
      ((bindCall sigStrong callStrong).map (fun b => b.lookup p)).toOption = some (some (.main p)) := by decide +kernel
  have e2 : ∀ p ∈ ["Dt", "N_sub_steps", "B_multip", "B_skew", "B0x", "B0y", "B0z"],
      ((bindCall sigMultipole callMultipole).map (fun b => b.lookup p)).toOption = some (some (.main p)) := by decide +kernel
  have e3 : ∀ p ∈ ["Dt", "B_map_file", "fact_Bmap"],
      ((bindCall sigBoris callBoris).map (fun b => b.lookup p)).toOption = some (some (.main p)) := by decide +kernel
  have e4 : ∀ p ∈ [("B0x", "temp_B0x"), ("B0y", "temp_B0y"), ("B0z", "temp_B0z")],
      ((bindCall sigBoris callBoris).map (fun b => b.lookup p.1)).toOption = some (some (.expr p.2)) := by decide +kernel
  exact ⟨fun p hp => received_main _ _ st _ _ (e1 p hp), fun p hp => received_main _ _ st _ _ (e2 p hp),
    fun p hp => received_main _ _ st _ _ (e3 p hp), fun p hp => received_eq _ _ st _ _ (e4 p hp),
    received_eq _ _ st _ _ (by decide +kernel : _ = some (some (.cloud "N_sub_steps"))), received_main _ _ st _ _ (by decide +kernel),
    received_eq _ _ st _ _ (by decide +kernel : _ = some (some (.expr "B")))⟩

/-- a cloud with another number of bins than the main input: the cloud asks for 50, the histogram has 100 -/
example : Part.impact.gets false false
    (⟨fun _ => 100, fun _ => 50, fun _ => 0, fun _ => 0, fun _ => 0⟩ : Settings ℕ) "Nbin_En_hist" = .ok (some 100) := by
  decide +kernel

/-- hypotheses of C114_cloud_settings_partial: a regeneration limit and `E0` of a cloud -/
example : ((.mp, "N_mp_regen", "N_mp_regen") : Part × String × String) ∈ governed ∧
    ((.accLow, "E0", "E0") : Part × String × String) ∈ governed ∧ Part.okE0 .accLow true ∧
    (Part.mp, "N_mp_regen") ∉ notFromCloud := by
  refine ⟨by decide +kernel, by decide +kernel, by decide +kernel, by decide +kernel⟩

/-- the flat model refuses `E0` -/
example : Part.flatLow.gets true false (⟨fun _ => 1, fun _ => 2, fun _ => 3, fun _ => 4, fun _ => 5⟩ : Settings ℕ) "R0"
    = .error .typeError := by decide +kernel

end PyECLOUD
