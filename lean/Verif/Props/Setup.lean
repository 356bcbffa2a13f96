/-
C124: data files are looked for in the input folder, there with `.mat`, and as given.
C125: parameter files named by keyword argument are the ones that are read.
C126: the chamber provides what the surface models need, or the simulation is refused.
C127: the space charge object is the one the settings ask for, or the simulation is refused.
-/
import Verif.Model.Setup
import Verif.Props.Config

namespace PyECLOUD

/-! ### C124 -/

/-- The documented search order, as a relation between the files that exist and the path that is used. -/
inductive LookedUp (isFile : String → Bool) (folder name : String) : String → Prop
  | inside (h : isFile (folder ++ "/" ++ name) = true) : LookedUp isFile folder name (folder ++ "/" ++ name)
  | withMat (h : isFile (folder ++ "/" ++ name) = false) (hm : isFile (folder ++ "/" ++ name ++ ".mat") = true) :
      LookedUp isFile folder name (folder ++ "/" ++ name ++ ".mat")
  | asGiven (h : isFile (folder ++ "/" ++ name) = false) (hm : isFile (folder ++ "/" ++ name ++ ".mat") = false) :
      LookedUp isFile folder name name

/-- **C124.** Chamber, surface, photoemission and cross section files are looked for in the documented
order, and so is the profile of the primary beam. -/
theorem C124_search (isFile : String → Bool) (folder name : String) :
    (∀ path, resolveIn isFile folder name = path ↔ LookedUp isFile folder name path) ∧
    (∃ path, resolvePrim isFile folder (some name) = some path ∧ LookedUp isFile folder name path) ∧
    resolvePrim isFile folder none = none := by
  have h0 : LookedUp isFile folder name (resolveIn isFile folder name) := by
    unfold resolveIn inFolder
    cases h1 : isFile (folder ++ "/" ++ name) with
    | true => exact .inside h1
    | false =>
      cases h2 : isFile (folder ++ "/" ++ name ++ ".mat") with
      | true => exact .withMat h1 h2
      | false => exact .asGiven h1 h2
  refine ⟨fun path => ⟨fun h => h ▸ h0, fun h => ?_⟩, ⟨_, rfl, h0⟩, rfl⟩
  unfold resolveIn inFolder
  cases h with
  | inside h => rw [if_pos h]
  | withMat h hm => rw [h, if_neg (by simp), if_pos hm]
  | asGiven h hm => rw [h, hm, if_neg (by simp), if_neg (by simp)]

example : resolveIn (fun p => decide (p = "in/chm.mat")) "in" "chm" = "in/chm.mat" := by decide +kernel

theorem resolveSec_inside {isFile : String → Bool} {folder n : String} (p : Option String)
    (h : isFile (folder ++ "/" ++ n) = true) : resolveSec isFile folder p (some n) = some (folder ++ "/" ++ n) := by
  show (if isFile (folder ++ "/" ++ n) = true then some (folder ++ "/" ++ n) else _) = _
  rw [if_pos h]

theorem resolveSec_none {isFile : String → Bool} {folder n : String}
    (h : isFile (folder ++ "/" ++ n) = false) : resolveSec isFile folder none (some n) = some n := by
  show (if isFile (folder ++ "/" ++ n) = true then _ else some n) = some n
  rw [if_neg (by simp [h])]

theorem resolveSec_mat {isFile : String → Bool} {folder n p : String} (h : isFile (folder ++ "/" ++ n) = false)
    (hm : isFile (folder ++ "/" ++ p ++ ".mat") = true) :
    resolveSec isFile folder (some p) (some n) = some (folder ++ "/" ++ n ++ ".mat") := by
  show (if isFile (folder ++ "/" ++ n) = true then _ else
    (if isFile (folder ++ "/" ++ p ++ ".mat") = true then some (folder ++ "/" ++ n ++ ".mat") else some n)) = _
  rw [if_neg (by simp [h]), if_pos hm]

theorem resolveSec_given {isFile : String → Bool} {folder n p : String} (h : isFile (folder ++ "/" ++ n) = false)
    (hm : isFile (folder ++ "/" ++ p ++ ".mat") = false) :
    resolveSec isFile folder (some p) (some n) = some n := by
  show (if isFile (folder ++ "/" ++ n) = true then _ else
    (if isFile (folder ++ "/" ++ p ++ ".mat") = true then some (folder ++ "/" ++ n ++ ".mat") else some n)) = _
  rw [if_neg (by simp [h]), if_neg (by simp [hm])]

/-- **C124.** The profile of a secondary beam is looked for in the documented order when the file is in
the input folder under the given name, or when the file of the primary beam with `.mat` is in the input
folder exactly when that of the secondary beam is.  Missing: the general case, see
`C124_secondary_violated`. -/
theorem C124_secondary_partial (isFile : String → Bool) (folder name prim : String)
    (h : isFile (folder ++ "/" ++ name) = true ∨
      isFile (folder ++ "/" ++ prim ++ ".mat") = isFile (folder ++ "/" ++ name ++ ".mat")) :
    ∃ path, resolveSec isFile folder (some prim) (some name) = some path ∧ LookedUp isFile folder name path := by
  cases h1 : isFile (folder ++ "/" ++ name) with
  | true => exact ⟨_, resolveSec_inside _ h1, .inside h1⟩
  | false =>
    have h2 := h.resolve_left (by simp [h1])
    cases h3 : isFile (folder ++ "/" ++ name ++ ".mat") with
    | true => exact ⟨_, resolveSec_mat h1 (h2.trans h3), .withMat h1 h3⟩
    | false => exact ⟨_, resolveSec_given h1 (h2.trans h3), .asGiven h1 h3⟩

example : ∃ path, resolveSec (fun p => decide (p = "in/b2") || decide (p = "in/b1.mat")) "in" (some "b1") (some "b2") = some path ∧
    LookedUp (fun p => decide (p = "in/b2") || decide (p = "in/b1.mat")) "in" "b2" path :=
  C124_secondary_partial _ _ _ _ (Or.inl (by decide +kernel))

/-- **C124, violated.** For a secondary beam the file with `.mat` is looked for under the name of the
primary beam's file: whatever the two different names are, a file that is only in the input folder with
`.mat` is not found, and when only the primary beam's file is there a path that does not exist is used
although the name as given is a file. -/
theorem C124_secondary_violated (folder name prim : String) (hne : prim ≠ name)
    (hg : name ≠ folder ++ "/" ++ name) :
    (∃ isFile : String → Bool, LookedUp isFile folder name (folder ++ "/" ++ name ++ ".mat") ∧
      isFile (folder ++ "/" ++ name ++ ".mat") = true ∧
      resolveSec isFile folder (some prim) (some name) = some name ∧
      resolveSec isFile folder none (some name) = some name) ∧
    (name ≠ folder ++ "/" ++ name ++ ".mat" → folder ++ "/" ++ prim ++ ".mat" ≠ folder ++ "/" ++ name →
      ∃ isFile : String → Bool, isFile name = true ∧ LookedUp isFile folder name name ∧
      ∃ path, resolveSec isFile folder (some prim) (some name) = some path ∧ isFile path = false) := by
  have happ : ∀ a b : String, a ++ ".mat" ≠ a := by
    intro a _ h
    have := congrArg (fun s => s.toList.length) h
    simp [String.toList_append] at this
  have hpn : folder ++ "/" ++ prim ++ ".mat" ≠ folder ++ "/" ++ name ++ ".mat" := by
    intro h
    have h' := congrArg String.toList h
    simp only [String.toList_append, List.append_assoc, List.append_cancel_left_eq, List.append_cancel_right_eq] at h'
    exact hne (String.toList_inj.1 h')
  refine ⟨⟨fun p => decide (p = folder ++ "/" ++ name ++ ".mat"), ?_, ?_, ?_, ?_⟩, ?_⟩
  · exact .withMat (decide_eq_false (fun h => happ _ "" h.symm)) (decide_eq_true rfl)
  · exact decide_eq_true rfl
  · exact resolveSec_given (decide_eq_false (fun h => happ _ "" h.symm)) (decide_eq_false hpn)
  · exact resolveSec_none (decide_eq_false (fun h => happ _ "" h.symm))
  · intro hg2 hg3
    refine ⟨fun p => decide (p = name) || decide (p = folder ++ "/" ++ prim ++ ".mat"), by simp, ?_, ?_⟩
    · refine .asGiven ?_ ?_
      · simp [Ne.symm hg, Ne.symm hg3]
      · simp only [Bool.or_eq_false_iff]
        exact ⟨decide_eq_false (Ne.symm hg2), decide_eq_false (Ne.symm hpn)⟩
    · refine ⟨folder ++ "/" ++ name ++ ".mat", ?_, ?_⟩
      · have e1 : (decide (folder ++ "/" ++ name = name) || decide (folder ++ "/" ++ name = folder ++ "/" ++ prim ++ ".mat")) = false := by
          rw [Bool.or_eq_false_iff]
          exact ⟨decide_eq_false (Ne.symm hg), decide_eq_false (Ne.symm hg3)⟩
        have e2 : (decide (folder ++ "/" ++ prim ++ ".mat" = name) || decide (folder ++ "/" ++ prim ++ ".mat" = folder ++ "/" ++ prim ++ ".mat")) = true := by
          rw [Bool.or_eq_true]
          exact Or.inr (decide_eq_true rfl)
        exact resolveSec_mat e1 e2
      · rw [Bool.or_eq_false_iff]
        exact ⟨decide_eq_false (Ne.symm hg2), decide_eq_false (Ne.symm hpn)⟩

example : ∃ isFile : String → Bool, isFile "in/b2.mat" = true ∧
    resolveSec isFile "in" (some "b1") (some "b2") = some "b2" := by
  obtain ⟨⟨f, -, h1, h2, -⟩, -⟩ := C124_secondary_violated "in" "b2" "b1" (by decide +kernel) (by decide +kernel)
  exact ⟨f, h1, h2⟩

/-- **C124.** The yield data are loaded from the file the search ends with whenever that is a file.
Missing: the folder `sey_files` of the package is also searched, but see `C124_surface_violated`. -/
theorem C124_surface_partial (isFile : String → Bool) (expand : String → String) (pkg folder name path : String)
    (hp : LookedUp isFile folder name path) (hf : isFile path = true) (hx : expand path = path) :
    seyFileUsed isFile expand pkg folder name = .ok path := by
  have h := ((C124_search isFile folder name).1 path).2 hp
  unfold seyFileUsed seyLoad
  rw [h, hx, List.filter_cons, if_pos hf]
  simp only
  unfold loadmatFile
  rw [if_pos hf]

example : seyFileUsed (fun p => decide (p = "in/cu.mat")) id "/pkg" "in" "cu" = .ok "in/cu.mat" :=
  C124_surface_partial _ _ _ _ _ _ (.withMat (by decide +kernel) (by decide +kernel)) (by decide +kernel) rfl

/-- **C124.** A file that is in none of the places is refused. -/
theorem C124_surface_refused (isFile : String → Bool) (expand : String → String) (pkg folder name : String)
    (h1 : isFile (folder ++ "/" ++ name) = false) (h2 : isFile (folder ++ "/" ++ name ++ ".mat") = false)
    (h3 : isFile (expand name) = false) (h4 : isFile (pkg ++ "/sey_files/" ++ name) = false) :
    seyFileUsed isFile expand pkg folder name = .error .valueError := by
  have h := ((C124_search isFile folder name).1 name).2 (.asGiven h1 h2)
  unfold seyFileUsed seyLoad
  rw [h]
  simp [h3, h4]

example : seyFileUsed (fun p => decide (p = "elsewhere")) id "/pkg" "in" "cu" = .error .valueError :=
  C124_surface_refused _ _ _ _ _ (by decide +kernel) (by decide +kernel) (by decide +kernel) (by decide +kernel)

/-- **C124, violated.** A file that is found only in the folder `sey_files` of the package is never
loaded: the search succeeds, but the name as given is opened and that fails. -/
theorem C124_surface_violated (isFile : String → Bool) (expand : String → String) (pkg folder name : String)
    (h1 : isFile (folder ++ "/" ++ name) = false) (h2 : isFile (folder ++ "/" ++ name ++ ".mat") = false)
    (h3 : isFile name = false) (h4 : isFile (name ++ ".mat") = false)
    (h5 : isFile (pkg ++ "/sey_files/" ++ name) = true) :
    seyFileUsed isFile expand pkg folder name = .error .custom := by
  have h := ((C124_search isFile folder name).1 name).2 (.asGiven h1 h2)
  unfold seyFileUsed seyLoad
  rw [h]
  have hf : ∃ a l, [expand name, pkg ++ "/sey_files/" ++ name].filter isFile = a :: l := by
    cases hx : isFile (expand name) <;> simp [hx, h5]
  obtain ⟨a, l, hf⟩ := hf
  rw [hf]
  simp only
  unfold loadmatFile
  rw [h3, h4]
  by_cases hm : ".mat".toList <:+ name.toList
  · rw [if_neg (by simp), if_pos hm]
  · rw [if_neg (by simp), if_neg hm, if_neg (by simp)]

example : seyFileUsed (fun p => decide (p = "/pkg/sey_files/cu.mat")) id "/pkg" "in" "cu.mat" = .error .custom :=
  C124_surface_violated _ _ _ _ _ (by decide +kernel) (by decide +kernel) (by decide +kernel) (by decide +kernel)
    (by decide +kernel)

/-! ### C125 -/

variable {V : Type}

/-- **C125.** A beam file named by keyword argument is the one that is read, and every other setting that
is not given by keyword is the one of the files.  Missing: the machine and surface files, see
`C125_machine_violated`. -/
theorem C125_beam_file_partial (t : ParamTbl V) (files : V → Mod V) (sim kw : Mod V) (ignore : List String) (m s : V)
    (hm : attr sim "machine_param_file" = some (.val m))
    (hs : attr sim "secondary_emission_parameters_file" = some (.val s))
    (hn : (kw.map (fun q => q.1)).Nodup) (hig : "beam_parameters_file" ∉ ignore) (c : Mod V)
    (hok : initConfig t files sim ignore kw = .ok c) :
    (∀ b, attr kw "beam_parameters_file" = some b → beamFileRead c = some b) ∧
    (∀ n v, attr kw n = some v → n ∉ ignore → attr c n = some v) ∧
    ∃ c0, readParams t sim (files m) (files s) = .ok c0 ∧ ∀ n, attr kw n = none → attr c n = attr c0 n := by
  unfold initConfig at hok
  rw [hm, hs] at hok
  simp only at hok
  cases hr : readParams t sim (files m) (files s) with
  | error e => rw [hr] at hok; exact absurd hok (by simp)
  | ok c0 =>
    rw [hr] at hok
    simp only at hok
    have hk := C57_kwargs ignore kw c0 hn
    by_cases hbad : ∃ q ∈ kw, q.1 ∉ ignore ∧ attr c0 q.1 = none
    · rw [hk.1 hbad] at hok
      exact absurd hok (by simp)
    · obtain ⟨c', hc', hv⟩ := hk.2 (fun q hq hi => by
        rw [Option.isSome_iff_ne_none]
        exact fun h => hbad ⟨q, hq, hi, h⟩)
      rw [hc'] at hok
      have hok := Except.ok.inj hok
      subst hok
      have h2 : ∀ n v, attr kw n = some v → n ∉ ignore → attr c' n = some v := by
        intro n v h hi
        rw [hv n, if_neg hi, h]
        rfl
      refine ⟨fun b hb => h2 _ b hb hig, h2, c0, rfl, fun n h => ?_⟩
      rw [hv n, h]
      by_cases hi : n ∈ ignore
      · rw [if_pos hi]
      · rw [if_neg hi]
        rfl

/-- **C125, violated.** A machine file named by keyword argument is accepted and shown in the
configuration, but it is not read: every machine setting keeps the value of the file named in the
simulation file. -/
theorem C125_machine_violated (t : ParamTbl V) (ht : t.Ok) (hpi : "pi" ∉ t.mandatory ∧ "pi" ∉ t.optNames)
    (hpub : ∀ q ∈ t.optional, isPublic q.1 = true) (files : V → Mod V) (hnod : ∀ f, ((files f).map (fun q => q.1)).Nodup)
    (sim : Mod V) (hns : (sim.map (fun q => q.1)).Nodup) (m m' s : V)
    (hm : attr sim "machine_param_file" = some (.val m))
    (hs : attr sim "secondary_emission_parameters_file" = some (.val s)) (c : Mod V)
    (hok : initConfig t files sim [] [("machine_param_file", .val m')] = .ok c) :
    attr c "machine_param_file" = some (.val m') ∧
    ∀ n v w, (n ∈ t.mandatory ∨ n ∈ t.optNames) → n ≠ "machine_param_file" → attr (files m) n = some (.val v) →
      attr (files m') n = some (.val w) → v ≠ w → attr c n = some (.val v) ∧ attr c n ≠ some (.val w) := by
  obtain ⟨-, h2, c0, hr, h3⟩ := C125_beam_file_partial t files sim [("machine_param_file", .val m')] [] m s hm hs
    (by simp) (by simp) c hok
  refine ⟨h2 _ _ (by rfl) (by simp), ?_⟩
  intro n v w hn hne hv _ hvw
  have h4 := (C57_read_files t ht hpi sim (files m) (files s) hns (hnod m) (hnod s) hpub c0 hr).1 n v hn
    (Or.inr (Or.inl hv))
  have h5 : attr c n = some (.val v) := by
    rw [h3 n (by simp [attr, Ne.symm hne]), h4]
  refine ⟨h5, ?_⟩
  rw [h5]
  simpa using hvw

/-- A table with one machine setting, and two machine files. -/
def exTbl : ParamTbl ℕ :=
  ⟨["machine_param_file", "secondary_emission_parameters_file", "beam_parameters_file", "bm_totlen"], [("B", 0)], []⟩

def exFiles : ℕ → Mod ℕ
  | 1 => [("bm_totlen", .val 10)]
  | 2 => [("bm_totlen", .val 20)]
  | _ => []

def exSim : Mod ℕ := [("machine_param_file", .val 1), ("secondary_emission_parameters_file", .val 3),
  ("beam_parameters_file", .val 4)]

example : ∃ c, initConfig exTbl exFiles exSim [] [("machine_param_file", .val 2)] = .ok c ∧
    attr c "bm_totlen" = some (.val 10) ∧ attr (exFiles 2) "bm_totlen" = some (.val 20) := by
  have hok : ∃ c, initConfig exTbl exFiles exSim [] [("machine_param_file", .val 2)] = .ok c := by
    have h : (initConfig exTbl exFiles exSim [] [("machine_param_file", .val 2)]).toBool = true := by decide +kernel
    cases hx : initConfig exTbl exFiles exSim [] [("machine_param_file", .val 2)] with
    | error e => rw [hx] at h; exact absurd h (by simp [Except.toBool])
    | ok c => exact ⟨c, rfl⟩
  obtain ⟨c, hc⟩ := hok
  have h := C125_machine_violated exTbl ⟨by decide +kernel, by decide +kernel, by decide +kernel⟩ (by decide +kernel) (by decide +kernel) exFiles
    (fun f => by
      unfold exFiles
      split <;> simp) exSim (by decide +kernel) 1 2 3 (by decide +kernel) (by decide +kernel) c hc
  exact ⟨c, hc, (h.2 "bm_totlen" 10 20 (by decide +kernel) (by decide +kernel) (by decide +kernel) (by decide +kernel)
    (by decide)).1, by decide +kernel⟩

/-! ### C126 -/

theorem readKeys_iff (keys l : List String) : readKeys keys l = .ok () ↔ ∀ k ∈ l, k ∈ keys := by
  induction l with
  | nil => simp [readKeys]
  | cons k l ih =>
    unfold readKeys
    by_cases h : k ∈ keys
    · rw [if_pos h, ih]
      simp [h]
    · rw [if_neg h]
      simp [h]

theorem readKeys_cases (keys l : List String) : readKeys keys l = .ok () ∨ ∃ e, readKeys keys l = .error e := by
  cases h : readKeys keys l with
  | ok u => exact Or.inl rfl
  | error e => exact Or.inr ⟨e, rfl⟩

/-- a cloud of the simulation has a surface with settings per segment -/
def UsesSegments (models : List String) : Prop := "ECLOUD_nunif" ∈ models ∨ "ECLOUD_nunif_charging" ∈ models

theorem nonUnif_iff (models : List String) : nonUnif models = true ↔ UsesSegments models := by
  unfold nonUnif UsesSegments
  simp only [List.any_eq_true, Bool.or_eq_true, decide_eq_true_eq]
  constructor
  · rintro ⟨x, hx, rfl | rfl⟩
    · exact Or.inl hx
    · exact Or.inr hx
  · rintro (h | h)
    · exact ⟨_, h, Or.inl rfl⟩
    · exact ⟨_, h, Or.inr rfl⟩

theorem polyChamber_iff (kind : String) (keys : List String) (nunif : Bool) (ch : ChamberObj) :
    polyChamber kind keys nunif = .ok ch ↔
      (∀ k ∈ ["Vx", "Vy", "x_sem_ellip_insc", "y_sem_ellip_insc"], k ∈ keys) ∧
      (nunif = true → (∀ k ∈ ["del_max_segments", "R0_segments", "Emax_segments"], k ∈ keys) ∧
        ("flag_charging" ∈ keys → ∀ k ∈ ["Q_max_segments", "EQ_segments", "tau_segments"], k ∈ keys)) ∧
      ch = ⟨kind, nunif, nunif && decide ("flag_charging" ∈ keys)⟩ := by
  unfold polyChamber
  rw [← readKeys_iff, ← readKeys_iff, ← readKeys_iff]
  rcases readKeys_cases keys ["Vx", "Vy", "x_sem_ellip_insc", "y_sem_ellip_insc"] with h1 | ⟨e, h1⟩
  · rw [h1]
    cases nunif with
    | false => simp [eq_comm]
    | true =>
      rcases readKeys_cases keys ["del_max_segments", "R0_segments", "Emax_segments"] with h2 | ⟨e, h2⟩
      · rw [h2]
        by_cases hc : "flag_charging" ∈ keys
        · rcases readKeys_cases keys ["Q_max_segments", "EQ_segments", "tau_segments"] with h3 | ⟨e, h3⟩
          · simp [h3, hc, eq_comm]
          · simp [h3, hc]
        · simp [hc, eq_comm]
      · simp [h2]
  · simp [h1]

theorem mkSurfaces_iff (ch : ChamberObj) (models : List String) :
    mkSurfaces ch models = .ok () ↔ ∀ m ∈ models, mkSurface ch m = .ok () := by
  induction models with
  | nil => simp [mkSurfaces]
  | cons m l ih =>
    unfold mkSurfaces
    cases h : mkSurface ch m with
    | error e => simp [h]
    | ok u => simp [h, ih]

/-- **C126.** Chamber and surfaces can be set up exactly when the chamber type is known, a polygonal
chamber file describes a polygon, and — if some cloud has a surface with settings per segment — the
chamber is a polygon from a file with these settings, including the complete set of charging settings if a
cloud needs them or the file mentions them.  Otherwise the simulation is refused; a surface with settings
per segment never falls back to uniform settings. -/
theorem C126_setup_iff (ctype : String) (keys models : List String) :
    (∃ ch, setupWall ctype keys models = .ok ch) ↔
      (ctype = "ellip" ∧ ¬ UsesSegments models) ∨ (ctype = "rect" ∧ ¬ UsesSegments models) ∨
      ((ctype = "polyg" ∨ ctype = "polyg_cython") ∧
        (∀ k ∈ ["Vx", "Vy", "x_sem_ellip_insc", "y_sem_ellip_insc"], k ∈ keys) ∧
        (UsesSegments models → (∀ k ∈ ["del_max_segments", "R0_segments", "Emax_segments"], k ∈ keys) ∧
          ("ECLOUD_nunif_charging" ∈ models → "flag_charging" ∈ keys) ∧
          ("flag_charging" ∈ keys → ∀ k ∈ ["Q_max_segments", "EQ_segments", "tau_segments"], k ∈ keys))) := by
  have hsplit : (∃ ch, setupWall ctype keys models = .ok ch) ↔
      ∃ ch, mkChamber ctype keys (nonUnif models) = .ok ch ∧ ∀ m ∈ models, mkSurface ch m = .ok () := by
    unfold setupWall
    cases hc : mkChamber ctype keys (nonUnif models) with
    | error e => simp
    | ok ch =>
      simp only [Except.ok.injEq, exists_eq_left']
      rw [← mkSurfaces_iff]
      cases hm : mkSurfaces ch models with
      | error e => simp
      | ok u => simp
  have hnoseg : ∀ ch : ChamberObj, ch.kind ≠ "polyg" →
      ((∀ m ∈ models, mkSurface ch m = .ok ()) ↔ ¬ UsesSegments models) := by
    intro ch hk
    unfold UsesSegments
    constructor
    · rintro h (h' | h')
      · have := h _ h'
        simp [mkSurface, hk] at this
      · have := h _ h'
        simp [mkSurface, hk] at this
    · intro h m hm
      have h1 : m ≠ "ECLOUD_nunif" := fun e => h (Or.inl (e ▸ hm))
      have h2 : m ≠ "ECLOUD_nunif_charging" := fun e => h (Or.inr (e ▸ hm))
      simp [mkSurface, h1, h2]
  rw [hsplit]
  unfold mkChamber
  by_cases h1 : ctype = "ellip"
  · subst h1
    rw [if_pos rfl]
    simp only [Except.ok.injEq, exists_eq_left']
    rw [hnoseg ⟨"ellip", false, false⟩ (by decide +kernel)]
    constructor
    · intro h
      exact Or.inl ⟨trivial, h⟩
    · rintro (h | h | h)
      · exact h.2
      · exact absurd h.1 (by decide +kernel)
      · exact absurd h.1 (by decide +kernel)
  · rw [if_neg h1]
    by_cases h2 : ctype = "polyg" ∨ ctype = "polyg_cython"
    · rw [if_pos h2]
      have h3 : ctype ≠ "rect" := by
        rcases h2 with rfl | rfl <;> decide +kernel
      simp only [polyChamber_iff, h1, h2, h3, false_and, false_or, true_and, nonUnif_iff]
      constructor
      · rintro ⟨ch, ⟨ha, hb, hch⟩, hs⟩
        refine ⟨ha, fun hu => ⟨(hb hu).1, fun hmem => ?_, (hb hu).2⟩⟩
        have h4 := hs _ hmem
        by_contra hno
        rw [hch] at h4
        simp [mkSurface, hno, (nonUnif_iff models).2 hu] at h4
      · rintro ⟨ha, hb⟩
        refine ⟨_, ⟨ha, fun hu => ⟨(hb hu).1, (hb hu).2.2⟩, rfl⟩, ?_⟩
        intro m hm
        by_cases hmm : m = "ECLOUD_nunif" ∨ m = "ECLOUD_nunif_charging"
        · have hu : UsesSegments models := by
            rcases hmm with rfl | rfl
            · exact Or.inl hm
            · exact Or.inr hm
          unfold mkSurface
          rw [if_pos hmm, if_neg (by simp), if_neg (by simp [(nonUnif_iff models).2 hu]), if_neg]
          rintro ⟨rfl, h5⟩
          have h6 := (hb hu).2.1 hm
          simp [(nonUnif_iff models).2 hu, h6] at h5
        · unfold mkSurface
          rw [if_neg hmm]
    · rw [if_neg h2]
      by_cases h3 : ctype = "rect"
      · subst h3
        rw [if_pos rfl]
        simp only [polyChamber_iff]
        constructor
        · rintro ⟨ch, ⟨-, -, hch⟩, hs⟩
          exact Or.inr (Or.inl ⟨trivial, (hnoseg ch (by rw [hch]; simp)).1 hs⟩)
        · rintro (h | h | h)
          · exact absurd h.1 (by decide +kernel)
          · have hf : nonUnif models = false := by
              rw [Bool.eq_false_iff]
              exact fun hh => h.2 ((nonUnif_iff models).1 hh)
            refine ⟨_, ⟨by simp, by simp [hf], rfl⟩, ?_⟩
            exact (hnoseg _ (by simp)).2 h.2
          · exact absurd h.1 (by decide +kernel)
      · rw [if_neg h3]
        simp [h1, h2, h3]

/-- **C126.** The chamber that is set up has the requested kind. -/
theorem C126_kind (ctype : String) (keys models : List String) (ch : ChamberObj)
    (h : setupWall ctype keys models = .ok ch) :
    ch.kind = (if ctype = "polyg_cython" then "polyg" else ctype) ∧ (ch.segs = true ↔ UsesSegments models) := by
  have hex := (C126_setup_iff ctype keys models).1 ⟨ch, h⟩
  unfold setupWall at h
  cases hc : mkChamber ctype keys (nonUnif models) with
  | error e => rw [hc] at h; exact absurd h (by simp)
  | ok c =>
    rw [hc] at h
    simp only at h
    cases hm : mkSurfaces c models with
    | error e => rw [hm] at h; exact absurd h (by simp)
    | ok u =>
      rw [hm] at h
      have h := Except.ok.inj h
      subst h
      unfold mkChamber at hc
      rcases hex with ⟨rfl, hu⟩ | ⟨rfl, hu⟩ | ⟨hp, -⟩
      · rw [if_pos rfl] at hc
        have hc := Except.ok.inj hc
        subst hc
        exact ⟨by simp, by simp [hu]⟩
      · rw [if_neg (by decide +kernel), if_neg (by decide +kernel), if_pos rfl, polyChamber_iff] at hc
        rw [hc.2.2]
        refine ⟨by simp, ?_⟩
        simp only [nonUnif_iff]
      · have h1 : ctype ≠ "ellip" := by rcases hp with rfl | rfl <;> decide +kernel
        rw [if_neg h1, if_pos hp, polyChamber_iff] at hc
        rw [hc.2.2]
        refine ⟨?_, by simp only [nonUnif_iff]⟩
        rcases hp with rfl | rfl
        · simp
        · simp

def exKeys : List String := ["Vx", "Vy", "x_sem_ellip_insc", "y_sem_ellip_insc", "del_max_segments", "R0_segments", "Emax_segments"]

example : ∃ ch, setupWall "polyg" exKeys ["ECLOUD", "ECLOUD_nunif"] = .ok ch := by
  rw [C126_setup_iff]
  exact Or.inr (Or.inr ⟨by decide +kernel, by decide +kernel, fun _ => by decide +kernel⟩)

example : ¬ ∃ ch, setupWall "polyg" exKeys ["ECLOUD", "ECLOUD_nunif_charging"] = .ok ch := by
  rw [C126_setup_iff]
  rintro (h | h | h)
  · exact absurd h.1 (by decide +kernel)
  · exact absurd h.1 (by decide +kernel)
  · exact absurd ((h.2.2 (Or.inr (by decide +kernel))).2.1 (by decide +kernel)) (by decide +kernel)

/-! ### C127 -/

variable {K : Type}

/-- The solvers on offer: the name each of them has in the settings, and the chambers and the number of
steps it is meant for. -/
def Offers (chamb mode : String) (nSteps : ℕ) : PicKind → Prop
  | .shortleyWeller => mode = "FiniteDifferences_ShortleyWeller"
  | .telescopic => mode = "ShortleyWeller_WithTelescopicGrids"
  | .staircase => mode = "FiniteDifferences_Staircase"
  | .fftPec => mode = "FFT_PEC_Boundary" ∧ chamb = "rect"
  | .fftOpen => mode = "FFT_OpenBoundary" ∧ chamb = "rect" ∧ nSteps ≠ 2
  | .fftOpenXY => mode = "FFT_OpenBoundary" ∧ chamb = "rect" ∧ nSteps = 2

theorem mkSpaceCharge_iff (chamb : String) (s : ScSettings K) (o : ScObj K) :
    mkSpaceCharge chamb s = .ok o ↔ Offers chamb s.mode s.dh.length o.pic ∧ o.dh = s.dh ∧ o.solver = s.solver ∧
      (o.nodes = true ↔ o.pic = .shortleyWeller ∨ o.pic = .staircase) ∧ o.dtSc = s.dtSc ∧ o.dhU = s.dhU ∧ o.em = false := by
  obtain ⟨mode, dh, dtSc, dhU, solver⟩ := s
  obtain ⟨pic, odh, osol, nodes, odt, odu, em⟩ := o
  have key : ∀ (p : PicKind) (b : Bool), (Except.ok ⟨p, dh, solver, b, dtSc, dhU, false⟩ : Except PyErr (ScObj K)) =
      .ok ⟨pic, odh, osol, nodes, odt, odu, em⟩ ↔
      p = pic ∧ odh = dh ∧ osol = solver ∧ b = nodes ∧ odt = dtSc ∧ odu = dhU ∧ em = false := by
    intro p b
    rw [Except.ok.injEq, ScObj.mk.injEq]
    constructor
    · rintro ⟨a, b, c, d, e, f, g⟩
      exact ⟨a, b.symm, c.symm, d, e.symm, f.symm, g.symm⟩
    · rintro ⟨a, b, c, d, e, f, g⟩
      exact ⟨a, b.symm, c.symm, d, e.symm, f.symm, g.symm⟩
  unfold mkSpaceCharge
  simp only
  have hn : ∀ b : Bool, (b = nodes ↔ (nodes = true ↔ b = true)) := by
    intro b
    cases b <;> cases nodes <;> simp
  by_cases h1 : mode = "FiniteDifferences_ShortleyWeller"
  · subst h1
    rw [if_pos rfl, key, hn]
    cases pic <;> simp [Offers]
  rw [if_neg h1]
  by_cases h2 : mode = "ShortleyWeller_WithTelescopicGrids"
  · subst h2
    rw [if_pos rfl, key, hn]
    cases pic <;> simp [Offers]
  rw [if_neg h2]
  by_cases h3 : mode = "FiniteDifferences_Staircase"
  · subst h3
    rw [if_pos rfl, key, hn]
    cases pic <;> simp [Offers]
  rw [if_neg h3]
  by_cases h4 : mode = "FFT_PEC_Boundary"
  · subst h4
    rw [if_pos rfl]
    by_cases hc : chamb = "rect"
    · rw [if_neg (by simpa using hc), key, hn]
      cases pic <;> simp [Offers, hc]
    · rw [if_pos hc]
      cases pic <;> simp [Offers, hc]
  rw [if_neg h4]
  by_cases h5 : mode = "FFT_OpenBoundary"
  · subst h5
    rw [if_pos rfl]
    by_cases hc : chamb = "rect"
    · rw [if_neg (by simpa using hc)]
      by_cases hl : dh.length = 2
      · rw [if_pos hl, key, hn]
        cases pic <;> simp [Offers, hc, hl]
      · rw [if_neg hl, key, hn]
        cases pic <;> simp [Offers, hc, hl]
    · rw [if_pos hc]
      cases pic <;> simp [Offers, hc]
  rw [if_neg h5]
  cases pic <;> simp [Offers, h1, h2, h3, h4, h5]

/-- **C127.** When a simulation builds its own space charge, it gets the solver named by the settings,
with the given step, decimation step and energy grid — if that solver is on offer for the chamber and, for
the electromagnetic one, the beam is there; in every other case it is refused with a ValueError. -/
theorem C127_built_iff (chamb : String) (s : ScSettings K) (em skipBeam : Bool) (o : ScObj K) :
    (setupSC false none chamb s em skipBeam = .ok (some o) ↔
      (em = true → skipBeam = false) ∧ Offers chamb s.mode s.dh.length o.pic ∧ o.dh = s.dh ∧
      o.solver = (if s.solver = "klu" then "PyKLU" else s.solver) ∧
      (o.nodes = true ↔ o.pic = .shortleyWeller ∨ o.pic = .staircase) ∧ o.dtSc = s.dtSc ∧ o.dhU = s.dhU ∧ o.em = em) := by
  set s' : ScSettings K := if s.solver = "klu" then { s with solver := "PyKLU" } else s with hs'
  have e1 : s'.mode = s.mode := by rw [hs']; split <;> rfl
  have e2 : s'.dh = s.dh := by rw [hs']; split <;> rfl
  have e3 : s'.dtSc = s.dtSc := by rw [hs']; split <;> rfl
  have e4 : s'.dhU = s.dhU := by rw [hs']; split <;> rfl
  have e5 : s'.solver = if s.solver = "klu" then "PyKLU" else s.solver := by rw [hs']; split <;> rfl
  have hk := fun o => mkSpaceCharge_iff chamb s' o
  rw [e1, e2, e3, e4, e5] at hk
  unfold setupSC
  rw [if_neg (by simp)]
  simp only [← hs']
  cases em with
  | false =>
    rw [if_neg (by simp)]
    rw [show ((∀ _ : false = true, skipBeam = false) ↔ True) from by simp]
    rw [true_and]
    rw [← hk o]
    cases mkSpaceCharge chamb s' with
    | error e => simp
    | ok p => simp
  | true =>
    rw [if_pos rfl]
    cases skipBeam with
    | true => simp
    | false =>
      rw [if_neg (by simp)]
      have hk2 := hk { o with em := false }
      simp only [and_true] at hk2
      simp only [implies_true, true_and]
      cases hm : mkSpaceCharge chamb s' with
      | error e =>
        rw [hm] at hk2
        constructor
        · intro h
          exact absurd h (by simp)
        · rintro ⟨a, b, c, d, e, f, -⟩
          exact absurd (hk2.2 ⟨a, b, c, d, e, f⟩) (by simp)
      | ok p =>
        rw [hm] at hk2
        simp only [Except.ok.injEq, Option.some.injEq] at hk2 ⊢
        have hp : p.em = false := ((hk p).1 hm).2.2.2.2.2.2
        constructor
        · intro h
          obtain ⟨a, b, c, d, e, f⟩ := hk2.1 (by rw [← h]; cases p; simp at hp ⊢; exact hp)
          exact ⟨a, b, c, d, e, f, by rw [← h]⟩
        · rintro ⟨a, b, c, d, e, f, g⟩
          rw [hk2.2 ⟨a, b, c, d, e, f⟩]
          cases o
          simp at g ⊢
          exact g

/-- **C127.** The only failure is a ValueError. -/
theorem C127_refused (chamb : String) (s : ScSettings K) (em skipBeam : Bool) (e : PyErr)
    (h : setupSC false none chamb s em skipBeam = .error e) : e = .valueError := by
  have hk : ∀ s' : ScSettings K, ∀ e, mkSpaceCharge chamb s' = .error e → e = .valueError := by
    intro s' e h
    unfold mkSpaceCharge at h
    repeat' split at h
    all_goals first
      | exact (Except.error.inj h).symm
      | cases h
  unfold setupSC at h
  rw [if_neg (by simp)] at h
  simp only at h
  set s' : ScSettings K := if s.solver = "klu" then { s with solver := "PyKLU" } else s
  cases em with
  | false =>
    rw [if_neg (by simp)] at h
    cases hm : mkSpaceCharge chamb s' with
    | error x =>
      rw [hm] at h
      have h := Except.error.inj h
      subst h
      exact hk _ _ hm
    | ok p => rw [hm] at h; exact absurd h (by simp)
  | true =>
    rw [if_pos rfl] at h
    cases skipBeam with
    | true =>
      rw [if_pos rfl] at h
      exact (Except.error.inj h).symm
    | false =>
      rw [if_neg (by simp)] at h
      cases hm : mkSpaceCharge chamb s' with
      | error x =>
        rw [hm] at h
        have h := Except.error.inj h
        subst h
        exact hk _ _ hm
      | ok p => rw [hm] at h; exact absurd h (by simp)

/-- **C127.** A space charge object handed in is used as it is; with `skip_spacech_ele` there is none. -/
theorem C127_given (g : Option (ScObj K)) (o : ScObj K) (chamb : String) (s : ScSettings K) (em skipBeam : Bool) :
    setupSC true g chamb s em skipBeam = .ok none ∧ setupSC false (some o) chamb s em skipBeam = .ok (some o) :=
  ⟨rfl, rfl⟩

/-- **C127.** Electromagnetic space charge goes only with the tracker that knows the magnetic field of
the cloud, and the electrostatic energy is evaluated exactly when its grid was given. -/
theorem C127_restrictions (em : Bool) (method : String) (o : ScObj K) :
    (trackerAllowed em method = .ok () ↔ method = "BorisMultipole" ∨
      (em = false ∧ (method = "Boris" ∨ method = "StrongBdip" ∨ method = "StrongBgen"))) ∧
    (∀ d, energyAllowed o = .ok d ↔ o.dhU = some d) := by
  constructor
  · unfold trackerAllowed
    by_cases h : method = "Boris" ∨ method = "StrongBdip" ∨ method = "StrongBgen"
    · have hb : method ≠ "BorisMultipole" := by rcases h with rfl | rfl | rfl <;> decide +kernel
      rw [if_pos h]
      cases em <;> simp [h, hb]
    · rw [if_neg h]
      by_cases hb : method = "BorisMultipole"
      · simp [hb]
      · simp [hb, h]
  · intro d
    unfold energyAllowed
    cases o.dhU <;> simp

/-- **C127, violated.** Electromagnetic space charge without a decimation step is accepted, but from the
first recomputation on the field cannot be evaluated, for any potentials. -/
theorem C127_em_step_violated [Field K] (chamb : String) (s : ScSettings K) (hs : s.dtSc = none)
    (hm : s.mode = "FiniteDifferences_ShortleyWeller") (old new : K) :
    ∃ o, setupSC false none chamb s true false = .ok (some o) ∧ o.em = true ∧
      potDot o.dtSc (some old) new = .error .typeError := by
  refine ⟨⟨.shortleyWeller, s.dh, if s.solver = "klu" then "PyKLU" else s.solver, true, s.dtSc, s.dhU, true⟩, ?_, rfl, ?_⟩
  · rw [C127_built_iff]
    exact ⟨by simp, hm, rfl, rfl, by simp, rfl, rfl, rfl⟩
  · rw [hs]
    rfl

/-- **C127.** With a decimation step the derivative is the difference quotient over that step, and zero
before the first recomputation. -/
theorem C127_em_step_partial [Field K] (d old new : K) (dt : Option K) :
    potDot (some d) (some old) new = .ok ((new - old) / d) ∧ potDot dt none new = .ok 0 :=
  ⟨rfl, rfl⟩

example : ∃ o : ScObj ℚ, setupSC false none "rect" ⟨"FFT_OpenBoundary", [1, 2], none, some 3, "klu"⟩ false true = .ok (some o) ∧
    o.pic = .fftOpenXY ∧ o.solver = "PyKLU" :=
  ⟨⟨.fftOpenXY, [1, 2], "PyKLU", false, none, some 3, false⟩, (C127_built_iff ..).2
    ⟨by simp, ⟨rfl, rfl, rfl⟩, rfl, rfl, by simp, rfl, rfl, rfl⟩, rfl, rfl⟩

example : setupSC false none "ellip" ⟨"FFT_PEC_Boundary", [(1 : ℚ)], none, none, "PyKLU"⟩ false true = .error .valueError := by
  rfl

end PyECLOUD
