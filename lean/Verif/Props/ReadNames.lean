import Verif.Model.ReadNames
import Verif.Spec.ReadNames
import Verif.Props.Config

/-!
# Parameters read by the set-up: C186, C187
-/

namespace PyECLOUD

theorem main_names (sim mach sec : Mod String) (n1 : (sim.map (fun q => q.1)).Nodup)
    (n2 : (mach.map (fun q => q.1)).Nodup) (n3 : (sec.map (fun q => q.1)).Nodup) (c : Mod String)
    (hok : readParams combTbl sim mach sec = .ok c) :
    ∀ n ∈ combTbl.mandatory ++ combTbl.optNames, (attr c n).isSome = true := by
  intro n hc
  unfold readParams at hok
  split at hok
  · cases hok
  · cases h1 : updateModule sim mach with
    | error e => rw [h1] at hok; cases hok
    | ok m1 =>
      rw [h1] at hok
      cases h2 : updateModule m1 sec with
      | error e => simp only [bind, Except.bind, h2] at hok; cases hok
      | ok m2 =>
        simp only [bind, Except.bind, h2] at hok
        cases h3 : assertParams combTbl m2 with
        | error e => rw [h3] at hok; cases hok
        | ok u =>
          rw [h3] at hok
          simp only at hok
          have a4 := ((updateModule_spec mach sim n2).1 m1 h1).2.2.2
          have b4 := ((updateModule_spec sec m1 n3).1 m2 h2).2.2.2
          obtain ⟨c', hc', c1, c2, -⟩ := C57_values combTbl C57_tables.2.2.2.1 m2 (b4 (a4 n1)) (by rw [h3]) none
          rw [hc'] at hok
          have := Except.ok.inj hok
          subst this
          rcases List.mem_append.1 hc with hm | ho
          · obtain ⟨v, -, hv⟩ := c1 n hm
            rw [hv]; rfl
          · obtain ⟨q, hq, rfl⟩ := List.mem_map.1 ho
            rw [c2 q.1 q.2 hq]; rfl

theorem kw_names (kw c c' : Mod String) (hn : (kw.map (fun q => q.1)).Nodup) (ignore : List String)
    (h : overrideKw ignore c kw = .ok c') :
    (∀ n, attr c' n = if n ∈ ignore then attr c n else (attr kw n).or (attr c n)) := by
  obtain ⟨h1, h2⟩ := C57_kwargs ignore kw c hn
  by_cases hb : ∃ q ∈ kw, q.1 ∉ ignore ∧ attr c q.1 = none
  · rw [h1 hb] at h; cases h
  · push Not at hb
    obtain ⟨d, hd, hd'⟩ := h2 (fun q hq hi => Option.isSome_iff_ne_none.2 (hb q hq hi))
    rw [hd] at h
    cases h
    exact hd'

/-- **C186**: whatever is in the three main input files and the keyword arguments, once they are accepted the set-up finds every
parameter of the main input it reads. -/
theorem C186_main (sim mach sec kw : Mod String) (n1 : (sim.map (fun q => q.1)).Nodup)
    (n2 : (mach.map (fun q => q.1)).Nodup) (n3 : (sec.map (fun q => q.1)).Nodup) (n4 : (kw.map (fun q => q.1)).Nodup)
    (ignore : List String) (c c' : Mod String) (hok : readParams combTbl sim mach sec = .ok c)
    (hkw : overrideKw ignore c kw = .ok c') :
    ∀ o ∈ viewOf mainReads c', o ≠ none := by
  intro o ho
  obtain ⟨n, hn, rfl⟩ := List.mem_map.1 ho
  have ht : ∀ n ∈ mainReads, n ∈ combTbl.mandatory ++ combTbl.optNames := by decide +kernel
  have h := main_names sim mach sec n1 n2 n3 c hok n (ht n hn)
  rw [kw_names kw c c' n4 ignore hkw n]
  obtain ⟨v, hv⟩ := Option.isSome_iff_exists.1 h
  rw [hv]
  split
  · exact Option.some_ne_none _
  · cases attr kw n <;> exact Option.some_ne_none _

theorem cloudReads_mem : ∀ n ∈ cloudReads, n = "filen_main_outp" ∨ n = "cloud_name" ∨
    (n ≠ "filen_main_outp" ∧ n ≠ "cloud_name" ∧ n ∈ cloudTbl.mandatory ++ cloudTbl.optNames) := by decide +kernel

/-- **C186**: the same for each cloud, with or without a file of its own: once the files are accepted, the configuration of the
cloud is built and the set-up finds every parameter of the cloud it reads. -/
theorem C186_cloud (sim mach sec kw : Mod String) (n1 : (sim.map (fun q => q.1)).Nodup)
    (n2 : (mach.map (fun q => q.1)).Nodup) (n3 : (sec.map (fun q => q.1)).Nodup) (n4 : (kw.map (fun q => q.1)).Nodup)
    (ignore : List String) (c c' : Mod String) (hok : readParams combTbl sim mach sec = .ok c)
    (hkw : overrideKw ignore c kw = .ok c') (file : Option (Mod String))
    (hf : ∀ f, file = some f → (f.map (fun q => q.1)).Nodup ∧ assertParams cloudTbl f = .ok ()) (outp name : String) :
    ∃ d, cloudConfig cloudTbl file c' outp name = .ok d ∧ ∀ o ∈ viewOf cloudReads d, o ≠ none := by
  have hmain : ∀ n ∈ cloudTbl.mandatory ++ cloudTbl.optNames, (attr c' n).isSome = true := by
    intro n hn
    have h := C79_main_complete sim mach sec n1 n2 n3 c hok n hn
    rw [kw_names kw c c' n4 ignore hkw n]
    obtain ⟨v, hv⟩ := Option.isSome_iff_exists.1 h
    rw [hv]
    split
    · rfl
    · cases attr kw n <;> rfl
  cases file with
  | some f =>
    obtain ⟨d, h1, h2, -, h4, h5⟩ := C79_cloud_file cloudTbl C57_tables.2.2.2.2.2 f c' (hf f rfl).1 hmain (hf f rfl).2 outp name
    refine ⟨d, h1, fun o ho => ?_⟩
    obtain ⟨n, hn, rfl⟩ := List.mem_map.1 ho
    rcases cloudReads_mem n hn with rfl | rfl | ⟨e1, e2, hm⟩
    · rw [h4]; exact Option.some_ne_none _
    · rw [h5]; exact Option.some_ne_none _
    · rw [h2 n hm e1 e2]
      obtain ⟨v, hv⟩ := Option.isSome_iff_exists.1 (hmain n hm)
      rw [hv]
      cases attr f n <;> exact Option.some_ne_none _
  | none =>
    obtain ⟨e, h1, h2⟩ := cfgMandatory_spec c' (cloudTbl.mandatory ++ cloudTbl.optNames) [] hmain
    refine ⟨_, by unfold cloudConfig copyConfig; simp only [bind, Except.bind, h1]; rfl, fun o ho => ?_⟩
    obtain ⟨n, hn, rfl⟩ := List.mem_map.1 ho
    rcases cloudReads_mem n hn with rfl | rfl | ⟨e1, e2, hm⟩
    · rw [attr_dictSet, if_neg (by decide +kernel), attr_dictSet, if_pos rfl]; exact Option.some_ne_none _
    · rw [attr_dictSet, if_pos rfl]; exact Option.some_ne_none _
    · rw [attr_dictSet, if_neg e2, attr_dictSet, if_neg e1, h2, if_pos hm]
      exact Option.isSome_iff_ne_none.1 (hmain n hm)

/-- **C186**: the same for each beam file: once it is accepted, the description of the beam finds every parameter it reads. -/
theorem C186_beam (f : Mod String) (hn : (f.map (fun q => q.1)).Nodup) (hacc : assertParams beamTbl f = .ok ()) :
    ∃ d, updateConfig beamTbl f none [] = .ok d ∧ ∀ o ∈ viewOf beamReads d, o ≠ none := by
  obtain ⟨d, h1, h2, h3, -⟩ := C57_values beamTbl C57_tables.2.2.2.2.1 f hn hacc none
  refine ⟨d, h1, fun o ho => ?_⟩
  obtain ⟨n, hn, rfl⟩ := List.mem_map.1 ho
  have ht : ∀ n ∈ beamReads, n ∈ beamTbl.mandatory ++ beamTbl.optNames := by decide +kernel
  rcases List.mem_append.1 (ht n hn) with hm | hm
  · obtain ⟨v, -, hv⟩ := h2 n hm
    rw [hv]; exact Option.some_ne_none _
  · obtain ⟨q, hq, rfl⟩ := List.mem_map.1 hm
    rw [h3 q.1 q.2 hq]; exact Option.some_ne_none _

/-- **C187** for beams, without exception: every parameter accepted in a beam file is read. Beam files which differ in the value of
a parameter lead to different views. -/
theorem C187_beam (f g : Mod String) (hf : (f.map (fun q => q.1)).Nodup) (hg : (g.map (fun q => q.1)).Nodup)
    (af : assertParams beamTbl f = .ok ()) (ag : assertParams beamTbl g = .ok ()) (n v w : String) (hp : isPublic n = true)
    (hpi : n ≠ "pi") (h1 : attr f n = some (.val v)) (h2 : attr g n = some (.val w)) (hne : v ≠ w) (df dg : Mod String)
    (e1 : updateConfig beamTbl f none [] = .ok df) (e2 : updateConfig beamTbl g none [] = .ok dg) :
    viewOf beamReads df ≠ viewOf beamReads dg := by
  obtain ⟨d, p1, p2, p3, -⟩ := C57_values beamTbl C57_tables.2.2.2.2.1 f hf af none
  obtain ⟨d', q1, q2, q3, -⟩ := C57_values beamTbl C57_tables.2.2.2.2.1 g hg ag none
  rw [e1] at p1; cases p1
  rw [e2] at q1; cases q1
  have hr : ∀ n ∈ beamTbl.mandatory ++ beamTbl.optNames, n ∈ beamReads := by decide +kernel
  have hs : ∀ n ∈ beamTbl.super, n = "pi" := by decide +kernel
  have key : n ∈ beamReads ∧ attr df n = some (.val v) ∧ attr dg n = some (.val w) := by
    rcases ((C57_accept_iff beamTbl f hf).1 af).2 n v hp h1 with hm | ⟨x, hx⟩ | hx
    · refine ⟨hr n (List.mem_append_left _ hm), ?_, ?_⟩
      · obtain ⟨y, y1, y2⟩ := p2 n hm
        rw [y2, ← y1, h1]
      · obtain ⟨y, y1, y2⟩ := q2 n hm
        rw [y2, ← y1, h2]
    · refine ⟨hr n (List.mem_append_right _ (List.mem_map.2 ⟨_, hx, rfl⟩)), ?_, ?_⟩
      · rw [p3 n x hx, h1]; rfl
      · rw [q3 n x hx, h2]; rfl
    · exact absurd (hs n hx) hpi
  intro hv
  have := List.map_inj_left.1 hv n key.1
  rw [key.2.1, key.2.2] at this
  exact hne (ModVal.val.inj (Option.some.inj this))

/-- **C187**, restricted to the parameters which are not ignored: cloud files which differ in the value of such a parameter lead
to different views. -/
theorem C187_cloud_partial (f g main : Mod String) (hf : (f.map (fun q => q.1)).Nodup) (hg : (g.map (fun q => q.1)).Nodup)
    (hmain : ∀ n ∈ cloudTbl.mandatory ++ cloudTbl.optNames, (attr main n).isSome = true)
    (af : assertParams cloudTbl f = .ok ()) (ag : assertParams cloudTbl g = .ok ()) (n v w : String) (hp : isPublic n = true)
    (hpi : n ≠ "pi") (hi : n ∉ ignoredInCloud) (h1 : attr f n = some (.val v)) (h2 : attr g n = some (.val w)) (hne : v ≠ w)
    (outp name : String) (df dg : Mod String) (e1 : cloudConfig cloudTbl (some f) main outp name = .ok df)
    (e2 : cloudConfig cloudTbl (some g) main outp name = .ok dg) :
    viewOf cloudReads df ≠ viewOf cloudReads dg := by
  obtain ⟨d, p1, p2, -⟩ := C79_cloud_file cloudTbl C57_tables.2.2.2.2.2 f main hf hmain af outp name
  obtain ⟨d', q1, q2, -⟩ := C79_cloud_file cloudTbl C57_tables.2.2.2.2.2 g main hg hmain ag outp name
  rw [e1] at p1; cases p1
  rw [e2] at q1; cases q1
  have hr : ∀ n ∈ cloudTbl.mandatory ++ cloudTbl.optNames, n ∉ ignoredInCloud → n ∈ cloudReads ∧ n ≠ "filen_main_outp" ∧
      n ≠ "cloud_name" := by decide +kernel
  have hs : ∀ n ∈ cloudTbl.super, n = "pi" := by decide +kernel
  have hm : n ∈ cloudTbl.mandatory ++ cloudTbl.optNames := by
    rcases ((C57_accept_iff cloudTbl f hf).1 af).2 n v hp h1 with hm | ⟨x, hx⟩ | hx
    · exact List.mem_append_left _ hm
    · exact List.mem_append_right _ (List.mem_map.2 ⟨_, hx, rfl⟩)
    · exact absurd (hs n hx) hpi
  obtain ⟨r1, r2, r3⟩ := hr n hm hi
  intro hv
  have := List.map_inj_left.1 hv n r1
  rw [p2 n hm r2 r3, q2 n hm r2 r3, h1, h2] at this
  exact hne (ModVal.val.inj (Option.some.inj this))

/-- **C187** fails for the others: whatever values two accepted cloud files give to them, the set-up sees no difference. -/
theorem C187_ignored (f g main : Mod String) (hf : (f.map (fun q => q.1)).Nodup) (hg : (g.map (fun q => q.1)).Nodup)
    (hmain : ∀ n ∈ cloudTbl.mandatory ++ cloudTbl.optNames, (attr main n).isSome = true)
    (af : assertParams cloudTbl f = .ok ()) (ag : assertParams cloudTbl g = .ok ()) (h : AgreeBut ignoredInCloud f g)
    (outp name : String) (df dg : Mod String) (e1 : cloudConfig cloudTbl (some f) main outp name = .ok df)
    (e2 : cloudConfig cloudTbl (some g) main outp name = .ok dg) :
    viewOf cloudReads df = viewOf cloudReads dg := by
  obtain ⟨d, p1, p2, -, p4, p5⟩ := C79_cloud_file cloudTbl C57_tables.2.2.2.2.2 f main hf hmain af outp name
  obtain ⟨d', q1, q2, -, q4, q5⟩ := C79_cloud_file cloudTbl C57_tables.2.2.2.2.2 g main hg hmain ag outp name
  rw [e1] at p1; cases p1
  rw [e2] at q1; cases q1
  have hr : ∀ n ∈ cloudReads, n ∉ ignoredInCloud := by decide +kernel
  refine List.map_congr_left fun n hn => ?_
  rcases cloudReads_mem n hn with rfl | rfl | ⟨g1, g2, hm⟩
  · rw [p4, q4]
  · rw [p5, q5]
  · rw [p2 n hm g1 g2, q2 n hm g1 g2, h n (hr n hn)]

/-- **C187** fails for the whole set of parameters: the number of energy bins asked for in a cloud file has no effect. -/
theorem C187_violated : ∃ f g : Mod String, assertParams cloudTbl f = .ok () ∧ assertParams cloudTbl g = .ok () ∧
    attr f "Nbin_En_hist" = some (.val "250") ∧ attr g "Nbin_En_hist" = some (.val "500") ∧
    ∀ main outp name, (∀ n ∈ cloudTbl.mandatory ++ cloudTbl.optNames, (attr main n).isSome = true) →
      ∃ df dg, cloudConfig cloudTbl (some f) main outp name = .ok df ∧ cloudConfig cloudTbl (some g) main outp name = .ok dg ∧
        viewOf cloudReads df = viewOf cloudReads dg := by
  refine ⟨fileOf cloudTbl [("Nbin_En_hist", .val "250")], fileOf cloudTbl [("Nbin_En_hist", .val "500")], by decide +kernel,
    by decide +kernel, by decide +kernel, by decide +kernel, fun main outp name hmain => ?_⟩
  obtain ⟨df, p1, -⟩ := C79_cloud_file cloudTbl C57_tables.2.2.2.2.2 (fileOf cloudTbl [("Nbin_En_hist", .val "250")]) main
    (by decide +kernel) hmain (by decide +kernel) outp name
  obtain ⟨dg, q1, -⟩ := C79_cloud_file cloudTbl C57_tables.2.2.2.2.2 (fileOf cloudTbl [("Nbin_En_hist", .val "500")]) main
    (by decide +kernel) hmain (by decide +kernel) outp name
  refine ⟨df, dg, p1, q1, C187_ignored _ _ main (by decide +kernel) (by decide +kernel) hmain (by decide +kernel)
    (by decide +kernel) ?_ outp name df dg p1 q1⟩
  intro n hn
  unfold fileOf
  rw [attr_append, attr_append, attr_cons, attr_cons]
  have : ¬ ("Nbin_En_hist" = n) := fun e => hn (e ▸ by decide +kernel)
  rw [if_neg this, if_neg this]

/-- **C187** also fails for the main input: the simulation file must give the time before which no regeneration takes place, and no
value of it is ever seen, neither for the main input nor for a cloud without a file. -/
theorem C187_regen_time (c c' : Mod String) (v : ModVal String)
    (hc : ∀ n ∈ cloudTbl.mandatory ++ cloudTbl.optNames, (attr c n).isSome = true)
    (h : overrideKw [] c [("t_ON_regen_low", v)] = .ok c') (outp name : String) :
    "t_ON_regen_low" ∈ combTbl.mandatory ∧ viewOf mainReads c' = viewOf mainReads c ∧
    ∃ d d', cloudConfig cloudTbl none c outp name = .ok d ∧ cloudConfig cloudTbl none c' outp name = .ok d' ∧
      viewOf (cloudReads.filter (fun n => decide (n ≠ "filen_main_outp" ∧ n ≠ "cloud_name"))) d' =
        viewOf (cloudReads.filter (fun n => decide (n ≠ "filen_main_outp" ∧ n ≠ "cloud_name"))) d := by
  have hk := kw_names [("t_ON_regen_low", v)] c c' (by simp) [] h
  have hk' : ∀ n, n ≠ "t_ON_regen_low" → attr c' n = attr c n := by
    intro n hn
    rw [hk n, if_neg (by simp), attr_cons, if_neg (fun e => hn e.symm)]
    simp [attr]
  have hc' : ∀ n ∈ cloudTbl.mandatory ++ cloudTbl.optNames, (attr c' n).isSome = true := by
    intro n hn
    rw [hk n, if_neg (by simp)]
    obtain ⟨w, hw⟩ := Option.isSome_iff_exists.1 (hc n hn)
    rw [hw]
    cases attr [("t_ON_regen_low", v)] n <;> rfl
  obtain ⟨d, d1, d2⟩ := C79_default_cloud cloudTbl c hc outp name
  obtain ⟨d', d1', d2'⟩ := C79_default_cloud cloudTbl c' hc' outp name
  have hr : ∀ n ∈ mainReads, n ≠ "t_ON_regen_low" := by decide +kernel
  have hq : ∀ n ∈ cloudReads, n ≠ "t_ON_regen_low" := by decide +kernel
  refine ⟨by decide +kernel, List.map_congr_left fun n hn => hk' n (hr n hn), d, d', d1, d1', List.map_congr_left fun n hn => ?_⟩
  obtain ⟨m1, m2⟩ := List.mem_filter.1 hn
  have m3 := of_decide_eq_true m2
  rcases cloudReads_mem n m1 with e | e | ⟨g1, g2, hm⟩
  · exact absurd e m3.1
  · exact absurd e m3.2
  · rw [d2' n hm g1 g2, d2 n hm g1 g2, hk' n (hq n m1)]

/-! Concrete cases. -/

/-- accepted main input, a keyword argument and a cloud file meet the hypotheses; the set-up sees the file's own limit -/
example : ∃ c, readParams combTbl (fileOf simTbl []) (fileOf machTbl [("x_aper", .val "2.")]) (fileOf secTbl []) = .ok c ∧
    (((fileOf simTbl []).map (fun q => q.1)).Nodup ∧ ((fileOf secTbl []).map (fun q => q.1)).Nodup ∧
      (overrideKw [] c [("t_ON_regen_low", .val "5.")]).map (fun c' => attr c' "t_ON_regen_low") = .ok (some (.val "5.")) ∧
      assertParams cloudTbl (fileOf cloudTbl [("N_mp_max", .val "7")]) = .ok () ∧
      (cloudConfig cloudTbl (some (fileOf cloudTbl [("N_mp_max", .val "7")])) c "out_ions.mat" "ions").map (fun d =>
        (viewOf cloudReads d).take 3) = .ok [some (.val "ions"), attr c "logfile_path", some (.val "7")]) :=
  exists_okC (by decide +kernel)

/-- two accepted beam files with different bunch lengths lead to different views -/
example : (updateConfig beamTbl (fileOf beamTbl [("sigmaz", .val "1")]) none []).map (viewOf beamReads) ≠
    (updateConfig beamTbl (fileOf beamTbl [("sigmaz", .val "2")]) none []).map (viewOf beamReads) := by decide +kernel

end PyECLOUD
