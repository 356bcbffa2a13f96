import Verif.Model.Twin
import Verif.Model.Files
import Verif.Props.PyHT
import Verif.Props.InitCalls

/-! # The saver after a re-initialisation (C120), twins sharing the space charge (C121) -/

namespace PyECLOUD

set_option linter.unusedSectionVars false

/-! ## C120 -/

/-- settings of the saver handed over at a re-initialisation -/
def reinitKept : List String := ["Dt_ref", "MP_e", "impact_man", "r_center", "Dt_En_hist", "logfile_path", "progress_path",
  "flag_detailed_MP_info", "cos_angle_width", "flag_cos_angle_hist", "flag_movie", "flag_sc_movie", "save_mp_state_time_file",
  "flag_presence_sec_beams", "sec_beams_list", "dec_fac_secbeam_prof", "el_density_probes", "save_simulation_state_time_file",
  "x_min_hist_det", "x_max_hist_det", "y_min_hist_det", "y_max_hist_det", "Dx_hist_det", "filen_main_outp", "dec_fact_out",
  "stopfile", "flag_multiple_clouds", "cloud_name", "flag_last_cloud"]

/-- settings that fall back to a default -/
def reinitLost : List (String × String) := [("save_mat_every", "1"), ("checkpoint_DT", "None"), ("checkpoint_folder", "None"),
  ("copy_main_outp_folder", "None"), ("copy_main_outp_DT", "None"), ("step_by_step_custom_observables", "None"),
  ("pass_by_pass_custom_observables", "None"), ("save_once_custom_observables", "None"), ("flag_lifetime_hist", "False"),
  ("Dt_lifetime_hist", "None"), ("flag_cross_ion", "False"), ("save_only", "None"), ("flag_electric_energy", "False")]

theorem reinit_args : ∀ p ∈ reinitKept,
    ((bindCall sigSaver callSaverReinit).map (fun b => b.lookup p)).toOption =
      ((bindCall sigSaver callSaver).map (fun b => b.lookup p)).toOption ∧
    (((bindCall sigSaver callSaver).map (fun b => b.lookup p)).toOption.bind id).isSome = true := by
  decide +kernel

/-- **C120, partial.** After a re-initialisation the saver observes with the values it was constructed with, for the settings
listed in `reinitKept`. -/
theorem C120_kept_partial {V : Type} (st : Settings V) (p : String) (hp : p ∈ reinitKept) :
    ∃ v, received st sigSaver callSaver p = .ok (some v) ∧ received st sigSaver callSaverReinit p = .ok (some v) := by
  obtain ⟨h1, h2⟩ := reinit_args p hp
  cases hb : ((bindCall sigSaver callSaver).map (fun b => b.lookup p)).toOption with
  | none => rw [hb] at h2; simp at h2
  | some o =>
    cases o with
    | none => rw [hb] at h2; simp at h2
    | some a => exact ⟨a.eval st, received_eq _ _ _ _ _ hb, received_eq _ _ _ _ _ (h1.trans hb)⟩

/-- **C120, violated.** The other settings are lost at the first interaction: whatever they are, the saver goes on with the
defaults. Among them are the selection of the output (`save_only`), the custom observables and the lifetime histogram. -/
theorem C120_lost_violated {V : Type} (st : Settings V) :
    (∀ p ∈ reinitLost, received st sigSaver callSaverReinit p.1 = .ok (some (st.val p.2))) ∧
    received st sigSaver callSaver "save_only" = .ok (some (st.cloud "save_only")) ∧
    received st sigSaver callSaver "save_mat_every" = .ok (some (st.main "save_mat_every")) ∧
    received st sigSaver callSaver "flag_lifetime_hist" = .ok (some (st.cloud "flag_lifetime_hist")) ∧
    received st sigSaver callSaver "step_by_step_custom_observables" = .ok (some (st.main "step_by_step_custom_observables")) := by
  have h : ∀ p ∈ reinitLost, ((bindCall sigSaver callSaverReinit).map (fun b => b.lookup p.1)).toOption =
      some (some (.expr p.2)) := by decide +kernel
  exact ⟨fun p hp => received_eq _ _ st _ _ (h p hp), received_cloud _ _ st _ _ (by decide +kernel),
    received_main _ _ st _ _ (by decide +kernel), received_cloud _ _ st _ _ (by decide +kernel),
    received_main _ _ st _ _ (by decide +kernel)⟩

/-- **C120, complete.** Every parameter of the observation is kept or lost, up to the beam (not used in PyHEADTAIL) and the extraction
of emission curves (done once, before the first interaction). -/
theorem C120_every_parameter : ∀ q ∈ sigSaver.map Prod.fst, q ∈ reinitKept ∨ q ∈ reinitLost.map Prod.fst ∨
    q ∈ ["beamtim", "extract_sey", "extract_ene_dist", "ene_dist_test_E_impact_eV", "Nbin_extract_ene", "factor_ene_dist_max"] := by
  decide +kernel

/-! ## C121 -/

/-- member of an e-cloud that holds an argument of its construction -/
def memberOf (p : String) : String := if p = "space_charge_obj" then "self.spacech_ele" else "self." ++ p

/-- **C121, construction.** A twin is constructed from the members of the e-cloud, each for the parameter it was set from, with the
space charge of the e-cloud; an e-cloud replaced by a field map has no twin. -/
theorem C121_construction {V : Type} (st : Settings V) :
    genTwin true st = .error .valueError ∧
    ∃ b, genTwin false st = .ok b ∧ ∀ p ∈ sigEcloud.map Prod.fst, b p = some (st.val (memberOf p)) := by
  refine ⟨rfl, ?_⟩
  cases hb : bindCall sigEcloud callTwin with
  | error e =>
    have : (bindCall sigEcloud callTwin).toOption.isSome = true := by decide +kernel
    rw [hb] at this; simp [Except.toOption] at this
  | ok b =>
    refine ⟨fun p => (b.lookup p).map (ArgSrc.eval st), ?_, ?_⟩
    · unfold genTwin
      rw [if_neg (by simp), hb]
      rfl
    · have h : ∀ p ∈ sigEcloud.map Prod.fst, ((bindCall sigEcloud callTwin).map (fun b => b.lookup p)).toOption =
          some (some (.expr (memberOf p))) := by decide +kernel
      intro p hp
      have := h p hp
      rw [hb] at this
      simp only [Except.map, Except.toOption, Option.some.injEq] at this
      show (b.lookup p).map (ArgSrc.eval st) = _
      rw [this]
      rfl

variable {K : Type} [Field K] [LinearOrder K] [IsStrictOrderedRing K] [FloorRing K] {C F : Type}

/-- **C121, partial.** E-clouds that share the space charge are interchangeable: the kicks a sequence of bunches receives do not
depend on which of them each bunch meets, nor on what they have done before; only the field left in the shared solver
enters. (Simulation steps that do not depend on the absolute time, slices without information on their bunch.) Missing: the
independence from the field left by the other e-clouds, violated below. -/
theorem C121_interchangeable_partial (g : EcCfg K) (m : EcSim K C F) (hg : g.once = false)
    (hmove : ∀ call t beam f c, m.move { call with t := t } beam f c = m.move call beam f c)
    (hmaint : ∀ call t c, m.maint { call with t := t } c = m.maint call c)
    (ops1 ops2 : List (ℕ × List (SliceIn K))) (hsame : ops1.map Prod.snd = ops2.map Prod.snd)
    (hne : ∀ o ∈ ops1, o.2 ≠ []) (hinfo : ∀ o ∈ ops1, ∀ sl ∈ o.2, sl.info = none)
    (st1 st2 st1' st2' : ℕ → EcSt K C F) (sh1 sh2 sh1' sh2' : Shared K F) (hf : sh1.field = sh2.field)
    (outs1 outs2 : List (List (SliceIn K)))
    (h1 : twinRun g m ops1 st1 sh1 = .ok (st1', sh1', outs1)) (h2 : twinRun g m ops2 st2 sh2 = .ok (st2', sh2', outs2)) :
    outs1 = outs2 ∧ sh1'.field = sh2'.field := by
  induction ops1 generalizing ops2 st1 st2 sh1 sh2 outs1 outs2 with
  | nil =>
    cases ops2 with
    | nil =>
      cases h1
      cases h2
      exact ⟨rfl, hf⟩
    | cons o l => simp at hsame
  | cons o1 l1 ih =>
    cases ops2 with
    | nil => simp at hsame
    | cons o2 l2 =>
      obtain ⟨k1, sl1⟩ := o1
      obtain ⟨k2, sl2⟩ := o2
      simp only [List.map_cons, List.cons.injEq] at hsame
      obtain ⟨hs, hl⟩ := hsame
      subst hs
      unfold twinRun at h1 h2
      obtain ⟨⟨a1, b1, c1⟩, ha, hb⟩ := bind_ok h1
      obtain ⟨⟨a2, b2, c2⟩, hc, hd⟩ := bind_ok hb
      cases hd
      obtain ⟨⟨x1, y1, z1⟩, hx, hy⟩ := bind_ok h2
      obtain ⟨⟨x2, y2, z2⟩, hz, hw⟩ := bind_ok hy
      cases hw
      unfold twinTrack at ha hx
      obtain ⟨⟨s, out⟩, ht, hr⟩ := bind_ok ha
      cases hr
      obtain ⟨⟨s', out'⟩, ht', hr'⟩ := bind_ok hx
      cases hr'
      obtain ⟨e1, -, e3⟩ := C81_independent_partial g m hmove hmaint sl1 (hinfo (k1, sl1) (by simp)) _ _ _ _ _ _
        (by exact hf) (by simp [hg]) (by simp [hg]) ht ht'
      have e3 := e3 (hne (k1, sl1) (by simp))
      obtain ⟨r1, r2⟩ := ih l2 hl (fun o ho => hne o (by simp [ho])) (fun o ho => hinfo o (by simp [ho])) _ _ _ _ (by exact e3)
        _ _ hc hz
      exact ⟨by rw [e1, r1], r2⟩

/-- **C121, violated.** A bunch gets other kicks from an e-cloud when its twin has tracked before: the first motion of its
electrons takes place in the field of the electrons of the twin. With a space charge of its own it would not: two new e-clouds
give the same kicks to the same bunch. -/
theorem C121_influence_violated :
    (∃ r, twinRun ecToyCfg ecToy [(0, ecToySlices), (1, ecToySlices)] (fun _ => ecToySt) ⟨0, 0⟩ = .ok r ∧
      ∃ a b, r.2.2 = [a, b] ∧ a ≠ b) ∧
    ∃ a b, trackBunch ecToyCfg ecToy ecToySt ecToySlices = .ok a ∧ trackBunch ecToyCfg ecToy ecToySt ecToySlices = .ok b ∧
      a.2 = b.2 := by
  constructor
  · obtain ⟨r, h1, h2⟩ : ∃ r, twinRun ecToyCfg ecToy [(0, ecToySlices), (1, ecToySlices)] (fun _ => ecToySt) ⟨0, 0⟩ = .ok r ∧
        r.2.2.length = 2 ∧ r.2.2.Nodup := exists_okT (by decide +kernel)
    refine ⟨r, h1, ?_⟩
    match hr : r.2.2, h2 with
    | [a, b], h2 =>
      refine ⟨a, b, rfl, ?_⟩
      intro hab
      have := h2.2
      simp [hab] at this
  · obtain ⟨r, h1, -⟩ : ∃ r, trackBunch ecToyCfg ecToy ecToySt ecToySlices = .ok r ∧ r.1.nTracks = 1 :=
      exists_okT (by decide +kernel)
    exact ⟨r, r, h1, h1, rfl⟩

/-- **C121, output.** The twin has the output name of the e-cloud, so interaction `i` of one overwrites interaction `i` of the other. -/
theorem C121_output_violated {V : Type} (st : Settings V) (name : V → List Char) (i : ℕ) :
    ∃ b, genTwin false st = .ok b ∧ ∃ v, b "save_pyecl_outp_as" = some v ∧
      iterName (name v) i = iterName (name (st.val "self.save_pyecl_outp_as")) i := by
  obtain ⟨b, h1, h2⟩ := (C121_construction st).2
  exact ⟨b, h1, _, h2 "save_pyecl_outp_as" (by decide), rfl⟩

/-- **C121**: e-clouds that meet no bunch keep their state, although their twins use the same space charge. -/
theorem C121_others (g : EcCfg K) (m : EcSim K C F) (ops : List (ℕ × List (SliceIn K))) (j : ℕ) (hj : ∀ o ∈ ops, o.1 ≠ j)
    (st st' : ℕ → EcSt K C F) (sh sh' : Shared K F) (outs : List (List (SliceIn K)))
    (h : twinRun g m ops st sh = .ok (st', sh', outs)) : st' j = st j := by
  induction ops generalizing st sh outs with
  | nil => cases h; rfl
  | cons o ops ih =>
    obtain ⟨k, sl⟩ := o
    unfold twinRun at h
    obtain ⟨⟨st1, sh1, out⟩, h1, h⟩ := bind_ok h
    obtain ⟨⟨st2, sh2, outs2⟩, h2, h⟩ := bind_ok h
    cases h
    rw [ih (fun o ho => hj o (List.mem_cons_of_mem _ ho)) st1 sh1 outs2 h2]
    unfold twinTrack at h1
    obtain ⟨⟨s, o⟩, -, h1⟩ := bind_ok h1
    cases h1
    exact if_neg (fun e => hj (k, sl) (by simp) e.symm)

/-- the bunches of `C121_interchangeable_partial` on two e-clouds in different order: all hypotheses hold -/
example : ∃ r, twinRun ecToyCfg ecToy [(0, ecToySlices), (1, ecToySlices), (0, ecToySlices)] (fun _ => ecToySt) ⟨0, 0⟩ = .ok r ∧
    (r.2.2.length = 3 ∧ (ecToySlices ≠ [] ∧ ∀ sl ∈ ecToySlices, sl.info = none) ∧ ecToyCfg.once = false) :=
  exists_okT (by decide +kernel)

/-- a lost setting: `save_only` is 1 for the cloud, the saver goes on with the default -/
example : received (⟨fun _ => 0, fun _ => 1, fun _ => 0, fun _ => 0, fun _ => 7⟩ : Settings ℕ) sigSaver callSaverReinit "save_only" =
    .ok (some 7) := by decide +kernel

end PyECLOUD
