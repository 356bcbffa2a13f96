/-
C122: the main output file shows every recorded quantity under its name.
C123: `save_only` keeps exactly the requested quantities.
-/
import Verif.Lemmas.OutDict

namespace PyECLOUD

variable {V : Type}

theorem outpKeys_nodup (s : OutSrc V) : ((s.read outpKeys).map Prod.fst).Nodup := by
  have h : (s.read outpKeys).map Prod.fst = outpKeys.map Prod.fst := by
    simp [OutSrc.read, Function.comp_def]
  rw [h]
  decide +kernel

theorem read_fst (s : OutSrc V) (l : List (String × String)) : (s.read l).map Prod.fst = l.map Prod.fst := by
  simp [OutSrc.read, Function.comp_def]

theorem sbsKeys_fst (s : OutSrc V) : (sbsKeys s).map Prod.fst =
    ["t", "lam_t_array", "Nel_timep", "Nel_imp_time", "Nel_emit_time", "En_imp_eV_time", "En_emit_eV_time",
       "En_kin_eV_time", "cen_density"]
    ++ (if s.detailed then ["N_mp_time", "nel_mp_ref_time"] else [])
    ++ (if s.cross then ["Nel_cross_ion", "N_mp_cross_ion", "DN_cross_ion"] else [])
    ++ (if s.elec then ["En_electric_eV_time"] else [])
    ++ (if s.probes then ["el_dens_at_probes"] else []) := by
  unfold sbsKeys
  cases s.detailed <;> cases s.cross <;> cases s.elec <;> cases s.probes <;> rfl

theorem sbsKeys_nodup (s : OutSrc V) : ((s.read (sbsKeys s)).map Prod.fst).Nodup := by
  rw [read_fst, sbsKeys_fst]
  have h := litNames_nodup true true s.detailed s.cross s.elec s.probes
  exact (List.nodup_append.1 h).2.1

/-- the two families of names that depend on the surface model -/
def famNames (s : OutSrc V) : List String :=
  s.sey.map (fun p => "sey_test_del_" ++ p.1 ++ "_mat") ++
  (if s.extractEne then (s.ene.filter (fun p => !hasHist p.1.toList)).map
    (fun p => "emit_ene_test_" ++ p.1 ++ "_mat") else [])

theorem baseDict_perm (s : OutSrc V) (e : List (String × V)) (he : eneDict s = .ok e) :
    ((baseDict s e).map Prod.fst).Perm
      (litNames s.lifetime s.extractEne s.detailed s.cross s.elec s.probes ++ famNames s) := by
  have hlt : (lifetimeDict s).map Prod.fst =
      if s.lifetime then ["lifetime_g_hist", "lifetime_hist", "t_lifetime_hist"] else [] := by
    unfold lifetimeDict
    cases s.lifetime <;> rfl
  have hsey : (seyDict s).map Prod.fst = ["sey_test_E_impact_eV", "sey_test_cos_theta"] ++
      s.sey.map (fun p => "sey_test_del_" ++ p.1 ++ "_mat") := by
    simp [seyDict, Function.comp_def]
  have hene : e.map Prod.fst = (if s.extractEne then
        ["ene_dist_test_cos_theta", "ene_dist_test_E_impact_eV", "emit_ene_g_hist"] else []) ++
      (if s.extractEne then (s.ene.filter (fun p => !hasHist p.1.toList)).map
        (fun p => "emit_ene_test_" ++ p.1 ++ "_mat") else []) := by
    unfold eneDict at he
    by_cases hx : s.extractEne = true
    · rw [if_pos hx] at he
      rw [if_pos hx, if_pos hx]
      cases hl : s.ene.lookup "emit_ene_g_hist" with
      | none => rw [hl] at he; exact absurd he (by simp)
      | some g =>
        rw [hl] at he
        have he := Except.ok.inj he
        subst he
        simp [Function.comp_def]
    · rw [if_neg hx] at he
      rw [if_neg hx, if_neg hx]
      have he := Except.ok.inj he
      subst he
      rfl
  unfold baseDict famNames litNames
  simp only [List.map_append, read_fst, hlt, hsey, hene, sbsKeys_fst, List.append_assoc]
  refine List.Perm.append_left _ (List.Perm.append_left _ (List.Perm.append_left _ ?_))
  generalize s.sey.map (fun p => "sey_test_del_" ++ p.1 ++ "_mat") = A
  generalize (if s.extractEne then ["ene_dist_test_cos_theta", "ene_dist_test_E_impact_eV", "emit_ene_g_hist"]
    else []) = B
  generalize (if s.extractEne then (s.ene.filter (fun p => !hasHist p.1.toList)).map
        (fun p => "emit_ene_test_" ++ p.1 ++ "_mat") else []) = C
  generalize ["t", "lam_t_array", "Nel_timep", "Nel_imp_time", "Nel_emit_time", "En_imp_eV_time", "En_emit_eV_time",
       "En_kin_eV_time", "cen_density"] = D1
  generalize (if s.detailed then ["N_mp_time", "nel_mp_ref_time"] else []) = D2
  generalize (if s.cross then ["Nel_cross_ion", "N_mp_cross_ion", "DN_cross_ion"] else []) = D3
  generalize (if s.elec then ["En_electric_eV_time"] else []) = D4
  generalize (if s.probes then ["el_dens_at_probes"] else []) = D5
  have h1 : (A ++ (B ++ (C ++ (D1 ++ (D2 ++ (D3 ++ (D4 ++ D5))))))).Perm
      ((B ++ (D1 ++ (D2 ++ (D3 ++ (D4 ++ D5))))) ++ (A ++ C)) := by
    rw [List.perm_iff_count]
    intro a
    simp only [List.count_append]
    omega
  simpa only [List.append_assoc] using h1

theorem famNames_nodup (s : OutSrc V) (hp : s.Proper) : (famNames s).Nodup := by
  have inj : ∀ (pre : String), Function.Injective (fun n : String => pre ++ n ++ "_mat") := by
    intro pre a b h
    have h' := congrArg String.toList h
    simp only [String.toList_append, List.append_assoc, List.append_cancel_left_eq, List.append_cancel_right_eq] at h'
    exact String.toList_inj.1 h'
  have h1 : (s.sey.map (fun p => "sey_test_del_" ++ p.1 ++ "_mat")).Nodup := by
    have h := hp.sey.map (inj "sey_test_del_")
    simpa [List.map_map, Function.comp_def] using h
  have h2 : ((s.ene.filter (fun p => !hasHist p.1.toList)).map (fun p => "emit_ene_test_" ++ p.1 ++ "_mat")).Nodup := by
    have h0 : ((s.ene.filter (fun p => !hasHist p.1.toList)).map Prod.fst).Nodup :=
      hp.ene.sublist (List.filter_sublist.map _)
    have h := h0.map (inj "emit_ene_test_")
    simpa [List.map_map, Function.comp_def] using h
  unfold famNames
  by_cases hx : s.extractEne = true
  · rw [if_pos hx]
    refine List.nodup_append.2 ⟨h1, h2, ?_⟩
    intro a ha b hb hab
    obtain ⟨p, _, rfl⟩ := List.mem_map.1 ha
    obtain ⟨q, _, rfl⟩ := List.mem_map.1 hb
    have h' := congrArg String.toList hab
    simp [String.toList_append] at h'
  · rw [if_neg hx, List.append_nil]
    exact h1

theorem baseDict_nodup (s : OutSrc V) (e : List (String × V)) (he : eneDict s = .ok e) (hp : s.Proper) :
    ((baseDict s e).map Prod.fst).Nodup := by
  rw [(baseDict_perm s e he).nodup_iff]
  refine List.nodup_append.2 ⟨litNames_nodup _ _ _ _ _ _, famNames_nodup s hp, ?_⟩
  intro a ha b hb hab
  subst hab
  have hf := litNames_family _ _ _ _ _ _ a ha
  unfold famNames at hb
  rcases List.mem_append.1 hb with h | h
  · obtain ⟨p, _, rfl⟩ := List.mem_map.1 h
    exact hf.1 (by simp only [String.toList_append, List.append_assoc]; exact List.prefix_append _ _)
  · by_cases hx : s.extractEne = true
    · rw [if_pos hx] at h
      obtain ⟨p, _, rfl⟩ := List.mem_map.1 h
      exact hf.2 (by simp only [String.toList_append, List.append_assoc]; exact List.prefix_append _ _)
    · rw [if_neg hx] at h
      exact absurd h (by simp)

theorem alwaysShown_split : ∀ k ∈ alwaysShown, (k, k) ∈ outpKeys ∨ k = "sey_test_cos_theta" ∨
    (k, k) ∈ [("t", "t"), ("lam_t_array", "lam_t_array"), ("Nel_timep", "Nel_timep"), ("Nel_imp_time", "Nel_imp_time"),
   ("Nel_emit_time", "Nel_emit_time"), ("En_imp_eV_time", "En_imp_eV_time"),
   ("En_emit_eV_time", "En_emit_eV_time"), ("En_kin_eV_time", "En_kin_eV_time"),
   ("cen_density", "cen_density")] := by
  decide +kernel

theorem read_mem (s : OutSrc V) {l : List (String × String)} {k a : String} (h : (k, a) ∈ l) :
    (k, s.attr a) ∈ s.read l :=
  List.mem_map.2 ⟨(k, a), h, rfl⟩

theorem shows_mem (s : OutSrc V) (e : List (String × V)) (he : eneDict s = .ok e) (hp : s.Proper)
    {k : String} {v : V} (h : Shows s k v) : (k, v) ∈ baseDict s e := by
  unfold baseDict
  simp only [List.mem_append]
  unfold eneDict at he
  cases h with
  | always h =>
    rcases alwaysShown_split k h with h | h | h
    · exact Or.inl (Or.inl (Or.inl (Or.inl (read_mem s h))))
    · subst h
      exact Or.inl (Or.inl (Or.inr (by simp [seyDict])))
    · refine Or.inr (read_mem s ?_)
      unfold sbsKeys
      simp only [List.append_assoc]
      exact List.mem_append_left _ h
  | area =>
    exact Or.inl (Or.inl (Or.inl (Or.inl (read_mem s (by decide +kernel)))))
  | lifetime h hk =>
    refine Or.inl (Or.inl (Or.inl (Or.inr ?_)))
    unfold lifetimeDict
    rw [if_pos h]
    refine read_mem s ?_
    revert hk
    simp only [List.mem_cons, List.not_mem_nil, or_false, Prod.mk.injEq]
    rintro (h | h | h) <;> simp [h]
  | detailed h hk =>
    refine Or.inr (read_mem s ?_)
    unfold sbsKeys
    rw [if_pos h]
    revert hk
    simp only [List.mem_cons, List.not_mem_nil, or_false]
    rintro (h | h) <;> simp [h]
  | cross h hk =>
    refine Or.inr (read_mem s ?_)
    unfold sbsKeys
    rw [if_pos h]
    revert hk
    simp only [List.mem_cons, List.not_mem_nil, or_false]
    rintro (h | h | h) <;> simp [h]
  | elec h =>
    refine Or.inr (read_mem s ?_)
    unfold sbsKeys
    rw [if_pos h]
    simp
  | probes h =>
    refine Or.inr (read_mem s ?_)
    unfold sbsKeys
    rw [if_pos h]
    simp
  | yield h =>
    refine Or.inl (Or.inl (Or.inr ?_))
    unfold seyDict
    exact List.mem_append_right _ (List.mem_map.2 ⟨_, h, rfl⟩)
  | @spectrum n v hx h hn =>
    refine Or.inl (Or.inr ?_)
    rw [if_pos hx] at he
    cases hl : s.ene.lookup "emit_ene_g_hist" with
    | none => rw [hl] at he; exact absurd he (by simp)
    | some g =>
      rw [hl] at he
      have he := Except.ok.inj he
      subst he
      refine List.mem_append_right _ (List.mem_map.2 ⟨(n, v), List.mem_filter.2 ⟨h, ?_⟩, rfl⟩)
      rw [← hasHist_iff] at hn
      simp [Bool.not_eq_true] at hn
      simp [hn]
  | spectrumGrid hx hk =>
    refine Or.inl (Or.inr ?_)
    rw [if_pos hx] at he
    cases hl : s.ene.lookup "emit_ene_g_hist" with
    | none => rw [hl] at he; exact absurd he (by simp)
    | some g =>
      rw [hl] at he
      have he := Except.ok.inj he
      subst he
      revert hk
      simp only [List.mem_cons, List.not_mem_nil, or_false]
      rintro (h | h) <;> simp [h]
  | energyGrid hx h =>
    refine Or.inl (Or.inr ?_)
    rw [if_pos hx, lookup_of_mem hp.ene h] at he
    have he := Except.ok.inj he
    subst he
    simp

/-- **C122.** If the output dictionary can be built, every recorded quantity is found under its name,
and every customised observable under the name the user gave it — provided the user's names are not
those of recorded quantities and are not used twice.  Missing from the full statement: without the
proviso a customised observable silently replaces the recorded quantity of the same name
(`C122_replaced_violated`), and the energies of the extracted yield are not among the quantities shown
as recorded (`C122_energies_violated`). -/
theorem C122_recorded_partial (s : OutSrc V) (hp : s.Proper) (hso : s.saveOnly = none) (d : List (String × V))
    (hok : buildOutp s = .ok d) :
    (∀ k v, Shows s k v → ¬ CustomName s k → d.lookup k = some (s.conv v)) ∧
    (∀ k v, (k, v) ∈ s.once → d.lookup k = some (s.conv v)) ∧
    (∀ k v, (k, v) ∈ s.pbp → k ∉ s.once.map Prod.fst → d.lookup k = some (s.conv v)) ∧
    (∀ k v, (k, v) ∈ s.sbs → k ∉ s.once.map Prod.fst → k ∉ s.pbp.map Prod.fst →
      d.lookup k = some (s.conv v)) := by
  unfold buildOutp at hok
  rw [hso] at hok
  cases hf : fullDict s with
  | error x => rw [hf] at hok; exact absurd hok (by simp)
  | ok d' =>
    rw [hf] at hok
    have hd := Except.ok.inj hok
    subst hd
    cases he : eneDict s with
    | error x => unfold fullDict at hf; rw [he] at hf; exact absurd hf (by simp)
    | ok e =>
      have hl := fullDict_lookup s e d' he hf (sbsKeys_nodup s) (outpKeys_nodup s)
      refine ⟨?_, ?_, ?_, ?_⟩
      · intro k v hs hc
        unfold CustomName at hc
        rw [not_or, not_or] at hc
        rw [hl, lookup_rev_none hc.1, lookup_rev_none hc.2.1, lookup_rev_none hc.2.2,
          lookup_rev_of_mem (baseDict_nodup s e he hp) (shows_mem s e he hp hs)]
        rfl
      · intro k v h
        rw [hl, lookup_rev_of_mem hp.once h]
        rfl
      · intro k v h h1
        rw [hl, lookup_rev_none h1, lookup_rev_of_mem hp.pbp h]
        rfl
      · intro k v h h1 h2
        rw [hl, lookup_rev_none h1, lookup_rev_none h2, lookup_rev_of_mem hp.sbs h]
        rfl

set_option synthInstance.maxSize 2000 in
set_option synthInstance.maxHeartbeats 400000 in
theorem litNames_shows (s : OutSrc V) : ∀ k ∈ litNames s.lifetime s.extractEne s.detailed s.cross s.elec s.probes,
    k ∈ alwaysShown ∨ k = "chamber_area" ∨ k = "sey_test_E_impact_eV" ∨
    (s.lifetime = true ∧ k ∈ ["lifetime_g_hist", "lifetime_hist", "t_lifetime_hist"]) ∨
    (s.detailed = true ∧ k ∈ ["N_mp_time", "nel_mp_ref_time"]) ∨
    (s.cross = true ∧ k ∈ ["Nel_cross_ion", "N_mp_cross_ion", "DN_cross_ion"]) ∨
    (s.elec = true ∧ k = "En_electric_eV_time") ∨ (s.probes = true ∧ k = "el_dens_at_probes") ∨
    (s.extractEne = true ∧ k ∈ ["ene_dist_test_cos_theta", "ene_dist_test_E_impact_eV"]) ∨
    (s.extractEne = true ∧ k = "emit_ene_g_hist") := by
  generalize s.lifetime = a
  generalize s.extractEne = b
  generalize s.detailed = c
  generalize s.cross = d
  generalize s.elec = e
  generalize s.probes = f
  revert a b c d e f
  decide +kernel

theorem base_shows (s : OutSrc V) (e : List (String × V)) (he : eneDict s = .ok e) (k : String)
    (h : k ∈ (baseDict s e).map Prod.fst) : (∃ v, Shows s k v) ∨ k = "sey_test_E_impact_eV" := by
  rw [(baseDict_perm s e he).mem_iff, List.mem_append] at h
  rcases h with h | h
  · rcases litNames_shows s k h with h | h | h | h | h | h | h | h | h | h
    · exact Or.inl ⟨_, .always h⟩
    · subst h
      exact Or.inl ⟨_, .area⟩
    · exact Or.inr h
    · exact Or.inl ⟨_, .lifetime h.1 h.2⟩
    · exact Or.inl ⟨_, .detailed h.1 h.2⟩
    · exact Or.inl ⟨_, .cross h.1 h.2⟩
    · obtain ⟨hb, rfl⟩ := h
      exact Or.inl ⟨_, .elec hb⟩
    · obtain ⟨hb, rfl⟩ := h
      exact Or.inl ⟨_, .probes hb⟩
    · exact Or.inl ⟨_, .spectrumGrid h.1 h.2⟩
    · obtain ⟨hb, rfl⟩ := h
      unfold eneDict at he
      rw [if_pos hb] at he
      cases hl : s.ene.lookup "emit_ene_g_hist" with
      | none => rw [hl] at he; exact absurd he (by simp)
      | some g => exact Or.inl ⟨g, .energyGrid hb (mem_of_lookup hl)⟩
  · unfold famNames at h
    rcases List.mem_append.1 h with h | h
    · obtain ⟨p, hp, rfl⟩ := List.mem_map.1 h
      exact Or.inl ⟨p.2, .yield hp⟩
    · by_cases hx : s.extractEne = true
      · rw [if_pos hx] at h
        obtain ⟨p, hp, rfl⟩ := List.mem_map.1 h
        obtain ⟨hp, hn⟩ := List.mem_filter.1 hp
        refine Or.inl ⟨p.2, .spectrum hx hp ?_⟩
        rw [← hasHist_iff]
        simpa using hn
      · rw [if_neg hx] at h
        exact absurd h (by simp)

/-- **C122.** The output file shows nothing else: its names are those of the recorded quantities, of
the energies of the extracted yield, and of the customised observables; no name occurs twice. -/
theorem C122_names (s : OutSrc V) (hp : s.Proper) (hso : s.saveOnly = none) (d : List (String × V))
    (hok : buildOutp s = .ok d) :
    (∀ k, k ∈ d.map Prod.fst ↔ (∃ v, Shows s k v) ∨ k = "sey_test_E_impact_eV" ∨ CustomName s k) ∧
    (d.map Prod.fst).Nodup := by
  unfold buildOutp at hok
  rw [hso] at hok
  cases hf : fullDict s with
  | error x => rw [hf] at hok; exact absurd hok (by simp)
  | ok d' =>
    rw [hf] at hok
    have hd := Except.ok.inj hok
    subst hd
    cases he : eneDict s with
    | error x => unfold fullDict at hf; rw [he] at hf; exact absurd hf (by simp)
    | ok e =>
      refine ⟨fun k => ?_, nodup_fullDict s d' hf (outpKeys_nodup s)⟩
      rw [mem_keys_fullDict s e d' he hf]
      constructor
      · rintro (h | h)
        · rcases base_shows s e he k h with h | h
          · exact Or.inl h
          · exact Or.inr (Or.inl h)
        · exact Or.inr (Or.inr h)
      · rintro (⟨v, h⟩ | h | h)
        · exact Or.inl (List.mem_map.2 ⟨(k, v), shows_mem s e he hp h, rfl⟩)
        · subst h
          left
          unfold baseDict
          simp [seyDict]
        · exact Or.inr h

/-- **C122.** The dictionary can always be built when the energy grid of the extracted spectra is
there, which the extraction always adds (impact_management_class.py:470). -/
theorem C122_built (s : OutSrc V) (hso : s.saveOnly = none)
    (hg : s.extractEne = true → "emit_ene_g_hist" ∈ s.ene.map Prod.fst) : ∃ d, buildOutp s = .ok d := by
  have he : ∃ e, eneDict s = .ok e := by
    unfold eneDict
    by_cases hx : s.extractEne = true
    · rw [if_pos hx]
      obtain ⟨v, hv⟩ := lookup_isSome_iff.2 (hg hx)
      rw [hv]
      exact ⟨_, rfl⟩
    · rw [if_neg hx]
      exact ⟨_, rfl⟩
  obtain ⟨e, he⟩ := he
  unfold buildOutp fullDict
  rw [he, hso]
  exact ⟨_, rfl⟩

/-- **C122, violated.** A customised observable with the name of a recorded quantity replaces it
without any message: whatever quantity `k` the file shows, there is a set of customised observables
under which the file shows something else there. -/
theorem C122_replaced_violated (s : OutSrc V) (hp : s.Proper) (hso : s.saveOnly = none) (k : String) (v w : V)
    (hk : Shows s k v) (hw : s.conv w ≠ s.conv v) (hg : s.extractEne = true → "emit_ene_g_hist" ∈ s.ene.map Prod.fst) :
    ∃ d, buildOutp { s with once := [(k, w)] } = .ok d ∧ Shows { s with once := [(k, w)] } k v ∧
      d.lookup k ≠ some (s.conv v) := by
  obtain ⟨d, hd⟩ := C122_built { s with once := [(k, w)] } hso hg
  refine ⟨d, hd, ?_, ?_⟩
  · cases hk with
    | always h => exact .always (s := { s with once := [(k, w)] }) h
    | area => exact .area (s := { s with once := [("chamber_area", w)] })
    | lifetime h hk => exact .lifetime (s := { s with once := [(k, w)] }) h hk
    | detailed h hk => exact .detailed (s := { s with once := [(k, w)] }) h hk
    | cross h hk => exact .cross (s := { s with once := [(k, w)] }) h hk
    | elec h => exact .elec (s := { s with once := [("En_electric_eV_time", w)] }) h
    | probes h => exact .probes (s := { s with once := [("el_dens_at_probes", w)] }) h
    | yield h => exact .yield h
    | spectrum h h1 h2 => exact .spectrum h h1 h2
    | spectrumGrid h hk => exact .spectrumGrid (s := { s with once := [(k, w)] }) h hk
    | energyGrid h h1 => exact .energyGrid h h1
  · have h := (C122_recorded_partial { s with once := [(k, w)] }
      ⟨hp.sey, hp.ene, hp.sbs, hp.pbp, by simp⟩ hso d hd).2.1 k w (by simp)
    rw [h]
    simpa using hw

/-- **C122, violated.** The energies at which the yield was extracted are filed as a tuple of length
one around the array: the file shows an array with an extra axis, not the recorded energies. -/
theorem C122_energies_violated (s : OutSrc V) (hp : s.Proper) (hso : s.saveOnly = none) (d : List (String × V))
    (hok : buildOutp s = .ok d) (hc : ¬ CustomName s "sey_test_E_impact_eV")
    (ht : s.conv (s.tup (s.attr "sey_test_E_impact_eV")) ≠ s.conv (s.attr "sey_test_E_impact_eV")) :
    ∃ v, d.lookup "sey_test_E_impact_eV" = some v ∧ v ≠ s.conv (s.attr "sey_test_E_impact_eV") := by
  unfold buildOutp at hok
  rw [hso] at hok
  cases hf : fullDict s with
  | error x => rw [hf] at hok; exact absurd hok (by simp)
  | ok d' =>
    rw [hf] at hok
    have hd := Except.ok.inj hok
    subst hd
    cases he : eneDict s with
    | error x => unfold fullDict at hf; rw [he] at hf; exact absurd hf (by simp)
    | ok e =>
      unfold CustomName at hc
      rw [not_or, not_or] at hc
      have hm : ("sey_test_E_impact_eV", s.tup (s.attr "sey_test_E_impact_eV")) ∈ baseDict s e := by
        unfold baseDict
        simp [seyDict]
      refine ⟨_, ?_, ht⟩
      rw [fullDict_lookup s e d' he hf (sbsKeys_nodup s) (outpKeys_nodup s), lookup_rev_none hc.1,
        lookup_rev_none hc.2.1, lookup_rev_none hc.2.2, lookup_rev_of_mem (baseDict_nodup s e he hp) hm]
      rfl

theorem onlyDict_ok (old : List (String × V)) (l : List String) (d r : List (String × V))
    (h : onlyDict old l d = .ok r) :
    (∀ k ∈ l, k ∈ old.map Prod.fst) ∧ ∀ j, r.lookup j = if j ∈ l then old.lookup j else d.lookup j := by
  induction l generalizing d with
  | nil =>
    have h := Except.ok.inj h
    subst h
    exact ⟨by simp, by simp⟩
  | cons k l ih =>
    unfold onlyDict at h
    cases hk : old.lookup k with
    | none => rw [hk] at h; exact absurd h (by simp)
    | some v =>
      rw [hk] at h
      obtain ⟨h1, h2⟩ := ih _ h
      refine ⟨?_, ?_⟩
      · intro j hj
        rcases List.mem_cons.1 hj with rfl | hj
        · exact lookup_isSome_iff.1 ⟨v, hk⟩
        · exact h1 j hj
      · intro j
        rw [h2 j, outSet_lookup]
        by_cases hjl : j ∈ l
        · rw [if_pos hjl, if_pos (List.mem_cons_of_mem _ hjl)]
        · rw [if_neg hjl]
          by_cases hjk : j = k
          · rw [if_pos hjk, if_pos (by rw [hjk]; exact List.mem_cons_self), hjk, hk]
          · rw [if_neg hjk, if_neg (by simp [hjk, hjl])]

theorem onlyDict_total (old : List (String × V)) (l : List String) (d : List (String × V))
    (h : ∀ k ∈ l, k ∈ old.map Prod.fst) : ∃ r, onlyDict old l d = .ok r := by
  induction l generalizing d with
  | nil => exact ⟨d, rfl⟩
  | cons k l ih =>
    obtain ⟨v, hv⟩ := lookup_isSome_iff.2 (h k List.mem_cons_self)
    unfold onlyDict
    rw [hv]
    exact ih _ (fun j hj => h j (List.mem_cons_of_mem _ hj))

theorem onlyDict_error (old : List (String × V)) (l : List String) (d : List (String × V)) (k : String) (hk : k ∈ l)
    (h : k ∉ old.map Prod.fst) : onlyDict old l d = .error .keyError := by
  induction l generalizing d with
  | nil => simp at hk
  | cons j l ih =>
    unfold onlyDict
    cases hj : old.lookup j with
    | none => rfl
    | some v =>
      rcases List.mem_cons.1 hk with rfl | hk
      · exact absurd (lookup_isSome_iff.1 ⟨v, hj⟩) h
      · exact ih _ hk

/-- **C123.** With `save_only` the file shows exactly the requested names, each with the value it has
in the unrestricted file; the restricted file can be written exactly when every requested name occurs in
the unrestricted one, and otherwise writing fails with a KeyError. -/
theorem C123_save_only (s : OutSrc V) (l : List String) (full : List (String × V))
    (hfull : buildOutp { s with saveOnly := none } = .ok full) :
    (∀ d, buildOutp { s with saveOnly := some l } = .ok d →
      (∀ k ∈ l, d.lookup k = full.lookup k ∧ k ∈ d.map Prod.fst) ∧ (∀ k, k ∈ d.map Prod.fst ↔ k ∈ l)) ∧
    ((∀ k ∈ l, k ∈ full.map Prod.fst) → ∃ d, buildOutp { s with saveOnly := some l } = .ok d) ∧
    ((∃ k ∈ l, k ∉ full.map Prod.fst) → buildOutp { s with saveOnly := some l } = .error .keyError) := by
  have hf : fullDict s = .ok full := by
    unfold buildOutp at hfull
    change (match fullDict s with | .error e => Except.error e | .ok d => Except.ok d) = _ at hfull
    cases h : fullDict s with
    | error x => rw [h] at hfull; exact absurd hfull (by simp)
    | ok d => rw [h] at hfull; exact hfull
  have hb : buildOutp { s with saveOnly := some l } = onlyDict full l [] := by
    unfold buildOutp
    change (match fullDict s with | .error e => Except.error e | .ok d => onlyDict d l []) = _
    rw [hf]
  rw [hb]
  refine ⟨?_, onlyDict_total full l [], ?_⟩
  · intro d hd
    obtain ⟨h1, h2⟩ := onlyDict_ok full l [] d hd
    have h3 : ∀ k, k ∈ d.map Prod.fst ↔ k ∈ l := by
      intro k
      rw [← lookup_isSome_iff, h2 k]
      by_cases hk : k ∈ l
      · rw [if_pos hk]
        exact ⟨fun _ => hk, fun _ => lookup_isSome_iff.2 (h1 k hk)⟩
      · rw [if_neg hk]
        exact ⟨fun ⟨v, hv⟩ => absurd hv (by simp), fun h => absurd h hk⟩
    exact ⟨fun k hk => ⟨by rw [h2 k, if_pos hk], (h3 k).2 hk⟩, h3⟩
  · rintro ⟨k, hk, hn⟩
    exact onlyDict_error full l [] k hk hn

/-- A saver with probes, cross ionisation and one observable of each kind; attributes are represented
by their names, tuples by brackets. -/
def exSrc : OutSrc String where
  attr := fun a => a
  lifetime := true
  extractEne := true
  detailed := false
  cross := true
  elec := false
  probes := true
  sey := [("elast", "me"), ("true", "mt")]
  ene := [("elast", "se"), ("true", "st"), ("emit_ene_g_hist", "grid")]
  sbs := [("my_sbs", "1")]
  pbp := [("my_pbp", "2")]
  once := [("my_once", "3")]
  saveOnly := none
  tup := fun v => "(" ++ v ++ ",)"
  conv := fun v => "array " ++ v

theorem exSrc_proper : exSrc.Proper := ⟨by decide +kernel, by decide +kernel, by decide +kernel, by decide +kernel,
  by decide +kernel⟩

example : ∃ d, buildOutp exSrc = .ok d ∧ d.lookup "chamber_area" = some "array area" ∧
    d.lookup "lifetime_hist" = some "array lifetime_hist" ∧ d.lookup "my_pbp" = some "array 2" ∧
    d.lookup "emit_ene_test_true_mat" = some "array st" ∧
    d.lookup "sey_test_E_impact_eV" = some "array (sey_test_E_impact_eV,)" := by
  obtain ⟨d, hd⟩ := C122_built exSrc rfl (fun _ => by decide +kernel)
  have hc : ∀ k ∈ ["chamber_area", "lifetime_hist", "emit_ene_test_true_mat", "sey_test_E_impact_eV"],
      ¬ CustomName exSrc k := by
    unfold CustomName
    decide +kernel
  have h := C122_recorded_partial exSrc exSrc_proper rfl d hd
  have h2 := C122_energies_violated exSrc exSrc_proper rfl d hd (hc _ (by simp)) (by decide +kernel)
  refine ⟨d, hd, h.1 _ _ .area (hc _ (by simp)), h.1 _ _ (.lifetime rfl (by simp)) (hc _ (by simp)),
    h.2.2.1 _ "2" (by decide +kernel) (by decide +kernel), ?_, ?_⟩
  · exact h.1 "emit_ene_test_true_mat" _ (.spectrum (n := "true") (v := "st") rfl (by decide +kernel) (by decide +kernel))
      (hc _ (by simp))
  · have hd' : buildOutp exSrc = .ok d := hd
    revert hd'
    have hx : (buildOutp exSrc).toOption.bind (fun d => d.lookup "sey_test_E_impact_eV") =
        some "array (sey_test_E_impact_eV,)" := by decide +kernel
    intro hd'
    rw [hd'] at hx
    exact hx

example : buildOutp { exSrc with saveOnly := some ["t", "my_once"] } = .ok [("t", "array t"), ("my_once", "array 3")] := by
  decide +kernel

example : buildOutp { exSrc with saveOnly := some ["t", "N_mp_time"] } = .error .keyError := by
  decide +kernel

example : ∃ d, buildOutp { exSrc with once := [("t", "my t")] } = .ok d ∧ d.lookup "t" ≠ some "array t" := by
  obtain ⟨d, h, _, h2⟩ := C122_replaced_violated exSrc exSrc_proper rfl "t" "t" "my t" (.always (by decide +kernel))
    (by decide +kernel) (fun _ => by decide +kernel)
  exact ⟨d, h, h2⟩

end PyECLOUD
