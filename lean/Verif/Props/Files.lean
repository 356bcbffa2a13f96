import Verif.Model.Files
import Mathlib.Data.List.Infix
import Mathlib.Tactic.Linarith

/-! # Names of the output files (C118) and directories of the movies (C119) -/

namespace PyECLOUD

/-! ## Splitting strings -/

theorem head_splitGo (sep : List Char) (s cur : List Char) :
    (splitGo sep 0 cur s).headD [] = cur.reverse ++ beforeSep sep s := by
  induction s generalizing cur with
  | nil => simp [splitGo, beforeSep]
  | cons c l ih =>
    simp only [splitGo, beforeSep]
    by_cases h : sep.isPrefixOf (c :: l)
    · rw [if_pos h, if_pos h]; simp
    · rw [if_neg h, if_neg h, ih]; simp

theorem splitFst_eq (sep s : List Char) : splitFst sep s = beforeSep sep s := by
  unfold splitFst; rw [head_splitGo]; rfl

theorem infix_tail {sep : List Char} {c : Char} {l : List Char} (h : ¬ sep <:+: c :: l) :
    ¬ sep <:+: l ∧ sep.isPrefixOf (c :: l) = false := by
  constructor
  · intro h'
    exact h (h'.trans (List.infix_cons (List.infix_refl l)))
  · cases hp : sep.isPrefixOf (c :: l) with
    | false => rfl
    | true => exact absurd (List.IsPrefix.isInfix (List.isPrefixOf_iff_prefix.1 hp)) h

theorem splitGo_none (sep s cur : List Char) (h : ¬ sep <:+: s) : splitGo sep 0 cur s = [cur.reverse ++ s] := by
  induction s generalizing cur with
  | nil => simp [splitGo]
  | cons c l ih =>
    obtain ⟨h1, h2⟩ := infix_tail h
    simp only [splitGo]
    rw [h2, if_neg (by simp), ih _ h1]
    simp

theorem splitFst_none (sep s : List Char) (h : ¬ sep <:+: s) : splitFst sep s = s := by
  unfold splitFst; rw [splitGo_none sep s [] h]; rfl

/-- A separator whose first character occurs only once in it is found behind a text that does not contain it. -/
theorem splitFst_append (d : Char) (r stem tail : List Char) (hd : d ∉ r) (h : ¬ (d :: r) <:+: stem) :
    splitFst (d :: r) (stem ++ (d :: r) ++ tail) = stem := by
  rw [splitFst_eq]
  induction stem with
  | nil =>
    rw [List.nil_append]
    simp only [List.cons_append, beforeSep]
    rw [if_pos]
    rw [List.isPrefixOf_iff_prefix]
    exact ⟨tail, by simp⟩
  | cons c l ih =>
    obtain ⟨h1, -⟩ := infix_tail h
    have h3 : ¬ (d :: r).isPrefixOf (c :: (l ++ (d :: r) ++ tail)) = true := by
      rw [List.isPrefixOf_iff_prefix]
      intro hp
      by_cases hl : (d :: r).length ≤ (c :: l).length
      · have : (d :: r) <+: (c :: l) := by
          refine List.prefix_of_prefix_length_le hp ?_ hl
          exact ⟨(d :: r) ++ tail, by simp⟩
        exact h this.isInfix
      · have hlt : l.length < r.length := by simp at hl; omega
        obtain ⟨t, ht⟩ := hp
        have e1 : ((d :: r) ++ t)[l.length + 1]? = (c :: (l ++ (d :: r) ++ tail))[l.length + 1]? := by rw [ht]
        rw [List.cons_append, List.getElem?_cons_succ, List.getElem?_cons_succ, List.append_assoc,
          List.getElem?_append_left hlt, List.getElem?_append_right (le_refl _)] at e1
        simp only [Nat.sub_self, List.cons_append, List.getElem?_cons_zero] at e1
        exact hd (List.mem_of_getElem? e1)
    show beforeSep (d :: r) (c :: (l ++ (d :: r) ++ tail)) = c :: l
    rw [beforeSep, if_neg h3, ih h1]

theorem splitGo_char (d : Char) (a b cur : List Char) :
    splitGo [d] 0 cur (a ++ d :: b) = splitGo [d] 0 cur a ++ splitGo [d] 0 [] b := by
  induction a generalizing cur with
  | nil => simp [splitGo]
  | cons c l ih =>
    rw [List.cons_append]
    simp only [splitGo]
    by_cases h : List.isPrefixOf [d] (c :: (l ++ d :: b)) = true
    · have h' : List.isPrefixOf [d] (c :: l) = true := by simpa using h
      rw [if_pos h, if_pos h']
      simp only [List.length_singleton, Nat.sub_self, List.cons_append]
      rw [ih]
    · have h' : ¬ List.isPrefixOf [d] (c :: l) = true := by simpa using h
      rw [if_neg h, if_neg h', ih]

theorem splitGo_char_none (d : Char) (a cur : List Char) (h : d ∉ a) : splitGo [d] 0 cur a = [cur.reverse ++ a] := by
  apply splitGo_none
  intro hi
  exact h (hi.subset (by simp))

theorem splitLst_char (d : Char) (a b : List Char) (h : d ∉ b) : splitLst [d] (a ++ d :: b) = b := by
  unfold splitLst
  rw [splitGo_char, splitGo_char_none d b [] h]
  simp

theorem splitGo_skip (sep p l cur : List Char) : splitGo sep p.length cur (p ++ l) = splitGo sep 0 cur l := by
  induction p with
  | nil => rfl
  | cons c p ih => simpa [splitGo] using ih

theorem splitGo_ne_nil (sep s : List Char) (k : ℕ) (cur : List Char) : splitGo sep k cur s ≠ [] := by
  induction s generalizing k cur with
  | nil => cases k <;> simp [splitGo]
  | cons c l ih =>
    cases k with
    | zero =>
      simp only [splitGo]
      split
      · simp
      · exact ih _ _
    | succ k => simpa [splitGo] using ih k cur

theorem last_slash (l : List Char) (h : '/' ∈ l) : ∃ a b, l = a ++ '/' :: b ∧ '/' ∉ b := by
  induction l with
  | nil => simp at h
  | cons c l ih =>
    by_cases hl : '/' ∈ l
    · obtain ⟨a, b, h1, h2⟩ := ih hl
      exact ⟨c :: a, b, by rw [h1]; rfl, h2⟩
    · have hc : c = '/' := by
        rcases List.mem_cons.1 h with h | h
        · exact h.symm
        · exact absurd h hl
      exact ⟨[], l, by rw [hc]; rfl, hl⟩

theorem joinSlash_append (l : List (List Char)) (x : List Char) (hl : l ≠ []) :
    joinSlash (l ++ [x]) = joinSlash l ++ '/' :: x := by
  induction l with
  | nil => exact absurd rfl hl
  | cons a l ih =>
    cases l with
    | nil => rfl
    | cons b l =>
      have := ih (by simp)
      simp only [List.cons_append, joinSlash] at this ⊢
      rw [this]
      simp

theorem joinSlash_split (s cur : List Char) : joinSlash (splitGo ['/'] 0 cur s) = cur.reverse ++ s := by
  induction s generalizing cur with
  | nil => simp [splitGo, joinSlash]
  | cons c l ih =>
    simp only [splitGo]
    by_cases h : List.isPrefixOf ['/'] (c :: l) = true
    · rw [if_pos h]
      have hc : c = '/' := by
        have := h
        simp only [List.isPrefixOf, Bool.and_true, beq_iff_eq] at this
        exact this.symm
      subst hc
      have hne : splitGo ['/'] 0 [] l ≠ [] := splitGo_ne_nil _ _ _ _
      have := ih []
      simp only [List.length_singleton, Nat.sub_self]
      cases hs : splitGo ['/'] 0 [] l with
      | nil => exact absurd hs hne
      | cons x y =>
        rw [hs] at this
        simp only [joinSlash]
        rw [this]
        simp
    · rw [if_neg h, ih]; simp

/-! ## C118 -/

/-- The text `t` is in `s`. -/
abbrev Has (t : String) (s : List Char) : Prop := t.toList <:+: s

theorem fmtD_inj (i j : ℕ) : fmtD i = fmtD j ↔ i = j := by
  constructor
  · intro h
    have h1 := Nat.ofDigitChars_toDigits (b := 10) (n := i) (by norm_num) (by norm_num)
    have h2 := Nat.ofDigitChars_toDigits (b := 10) (n := j) (by norm_num) (by norm_num)
    unfold fmtD at h
    rw [h] at h1
    exact h1.symm.trans h2
  · intro h; rw [h]

theorem fmtD_digit (i : ℕ) (c : Char) (h : c ∈ fmtD i) : c.isDigit = true :=
  Nat.isDigit_of_mem_toDigits (by norm_num) (by norm_num) h

theorem fmtD_not (i : ℕ) (c : Char) (h : c.isDigit = false) : c ∉ fmtD i := by
  intro hc
  rw [fmtD_digit i c hc] at h
  cases h

/-- **C118, interactions.** Different interactions of an e-cloud write different files. If the configured name is `stem.mat` with neither
`.mat` nor `__iter` in `stem`, interaction `i` writes `stem__iter<i>.mat`. -/
theorem C118_interactions_partial (outp : List Char) (i j : ℕ) :
    (iterName outp i = iterName outp j ↔ i = j) ∧
    ∀ stem, outp = stem ++ ".mat".toList → ¬ Has ".mat" stem → ¬ Has "__iter" stem →
      iterName outp i = stem ++ "__iter".toList ++ fmtD i ++ ".mat".toList := by
  constructor
  · unfold iterName
    constructor
    · intro h
      have h1 := List.append_cancel_right h
      have h2 := List.append_cancel_left h1
      exact (fmtD_inj i j).1 h2
    · intro h; rw [h]
  · rintro stem rfl h1 h2
    have e := splitFst_append '.' "mat".toList stem [] (by decide) h1
    rw [List.append_nil] at e
    unfold iterName
    rw [show splitFst ".mat".toList (stem ++ ".mat".toList) = stem from e, splitFst_none _ _ h2]

/-- **C118, violated.** Two e-clouds configured with different output names write the same files, and an output folder
with `.mat` in its name is cut off. -/
theorem C118_interactions_violated :
    (∃ a b : List Char, a ≠ b ∧ ∀ i, iterName a i = iterName b i) ∧
    iterName "run.mat_files/cloud1.mat".toList 0 = "run__iter0.mat".toList := by
  refine ⟨⟨"scan__iter_a.mat".toList, "scan__iter_b.mat".toList, by decide, ?_⟩, by decide +kernel⟩
  intro i
  unfold iterName
  rw [show splitFst "__iter".toList (splitFst ".mat".toList "scan__iter_a.mat".toList) =
    splitFst "__iter".toList (splitFst ".mat".toList "scan__iter_b.mat".toList) by decide +kernel]

/-- **C118, checkpoints.** The number read from the name of a checkpoint file is the one it was saved with, so checkpoints have
different names. -/
theorem C118_checkpoint_number (i : ℕ) : checkpointNumber (checkpointName i) = .ok i := by
  unfold checkpointNumber checkpointName
  have h1 : splitFst ".pkl".toList ("simulation_checkpoint_".toList ++ fmtD i ++ ".pkl".toList) =
      "simulation_checkpoint_".toList ++ fmtD i := by
    have := splitFst_append '.' "pkl".toList ("simulation_checkpoint_".toList ++ fmtD i) [] (by decide) (by
      intro h
      have h2 : '.' ∈ "simulation_checkpoint_".toList ++ fmtD i := h.subset (by simp)
      rw [List.mem_append] at h2
      rcases h2 with h2 | h2
      · exact absurd h2 (by decide)
      · exact fmtD_not i '.' (by decide) h2)
    rw [List.append_nil] at this
    exact this
  rw [h1]
  have h2 : splitLst "_".toList ("simulation_checkpoint_".toList ++ fmtD i) = fmtD i := by
    have := splitLst_char '_' "simulation_checkpoint".toList (fmtD i) (fmtD_not i '_' (by decide))
    rw [show "simulation_checkpoint_".toList ++ fmtD i = "simulation_checkpoint".toList ++ '_' :: fmtD i by
      rw [show "simulation_checkpoint_".toList = "simulation_checkpoint".toList ++ ['_'] by decide, List.append_assoc]; rfl]
    exact this
  rw [h2]
  unfold pyInt
  rw [if_pos ⟨Nat.toDigits_ne_nil, fun c hc => fmtD_digit i c hc⟩]
  unfold fmtD
  rw [Nat.ofDigitChars_toDigits (by norm_num) (by norm_num)]

/-- **C118, resuming.** A resumed run reads the file the saver writes to: the path put together from folder and file name
is the same file. -/
theorem C118_resume (outp : List Char) : pathKey (resumePath outp) = pathKey outp ∧ ('/' ∈ outp → resumePath outp = outp) := by
  by_cases h : '/' ∈ outp
  · have e : resumePath outp = outp := by
      unfold resumePath folderOutp fnameOnly splitLst
      rw [if_pos h, if_pos h]
      set l := splitGo ['/'] 0 [] outp with hl
      have hne : l ≠ [] := splitGo_ne_nil _ _ _ _
      have hd : l.dropLast ≠ [] := by
        obtain ⟨a, b, rfl⟩ := List.append_of_mem h
        rw [hl, splitGo_char]
        have h1 := splitGo_ne_nil ['/'] a 0 []
        have h2 := splitGo_ne_nil ['/'] b 0 []
        rw [List.dropLast_append_of_ne_nil h2]
        simp [h1]
      have hlast : l.getLastD [] = l.getLast hne := by rw [List.getLastD_eq_getLast?, List.getLast?_eq_some_getLast hne]; rfl
      have := joinSlash_append l.dropLast (l.getLast hne) hd
      rw [List.dropLast_append_getLast] at this
      have hj : joinSlash l = outp := by rw [hl, joinSlash_split]; rfl
      rw [hlast, List.append_assoc, List.singleton_append, ← this, hj]
    exact ⟨by rw [e], fun _ => e⟩
  · refine ⟨?_, fun h' => absurd h' h⟩
    unfold resumePath folderOutp fnameOnly
    rw [if_neg h, if_neg h]
    have e1 : pathKey ("./".toList ++ ['/'] ++ outp) = (false, (splitGo ['/'] 0 [] outp).filter keepComp) := by
      unfold pathKey
      have h1 := splitGo_char '/' ['.', '/'] outp []
      rw [show "./".toList ++ ['/'] ++ outp = ['.', '/'] ++ '/' :: outp by simp]
      rw [h1]
      simp [splitGo, keepComp]
    rw [e1]
    unfold pathKey
    have : (outp.head? == some '/') = false := by
      cases outp with
      | nil => rfl
      | cons c l =>
        have hc : c ≠ '/' := by intro hc; exact h (by simp [hc])
        simp [hc]
    rw [this]

/-- **C118, restart.** With a name `Pyecltest<ext>` a restarted run adds `<ext>` to the name of the output (`.mat` at its end only). -/
theorem C118_restart_partial (ext stem : List Char) (h1 : ¬ Has "Pyecltest" ext) (h2 : ¬ Has ".mat" stem) :
    restartName ("Pyecltest".toList ++ ext) (stem ++ ".mat".toList) = stem ++ ext ++ ".mat".toList := by
  unfold restartName
  have e := splitFst_append '.' "mat".toList stem [] (by decide) h2
  rw [List.append_nil] at e
  have e2 : splitLst "Pyecltest".toList ("Pyecltest".toList ++ ext) = ext := by
    unfold splitLst
    have : splitGo "Pyecltest".toList 0 [] ("Pyecltest".toList ++ ext) =
        [] :: splitGo "Pyecltest".toList "yecltest".toList.length [] ("yecltest".toList ++ ext) := by
      show splitGo "Pyecltest".toList 0 [] ('P' :: ("yecltest".toList ++ ext)) = _
      simp only [splitGo]
      rw [if_pos]
      · rfl
      · rw [List.isPrefixOf_iff_prefix]; exact ⟨ext, rfl⟩
    rw [this, splitGo_skip, splitGo_none _ _ _ h1]
    simp
  rw [e2, show splitFst ".mat".toList (stem ++ ".mat".toList) = stem from e]

/-- **C118, violated.** Any other name is not the name of the output of the restarted run: it is added to the old one. -/
theorem C118_restart_violated (name stem : List Char) (h1 : ¬ Has "Pyecltest" name) (h2 : ¬ Has ".mat" stem) (hs : stem ≠ []) :
    restartName name (stem ++ ".mat".toList) = stem ++ name ++ ".mat".toList ∧
    restartName name (stem ++ ".mat".toList) ≠ name ++ ".mat".toList ∧
    restartName name (stem ++ ".mat".toList) ≠ name := by
  have e := splitFst_append '.' "mat".toList stem [] (by decide) h2
  rw [List.append_nil] at e
  have e1 : restartName name (stem ++ ".mat".toList) = stem ++ name ++ ".mat".toList := by
    unfold restartName splitLst
    rw [splitGo_none _ _ _ h1, show splitFst ".mat".toList (stem ++ ".mat".toList) = stem from e]
    simp
  have hpos : 0 < stem.length := List.length_pos_iff.2 hs
  refine ⟨e1, ?_, ?_⟩ <;>
  · rw [e1]
    intro h
    have := congrArg List.length h
    simp only [List.length_append] at this
    omega

/-- **C118, extraction.** The extracted cross section never overwrites the file of the cross section. -/
theorem C118_extracted (path : List Char) : extractedName path ≠ path ∧
    ∀ stem, path = stem ++ ".mat".toList → ¬ Has ".mat" stem → extractedName path = stem ++ "_extracted.mat".toList := by
  constructor
  · unfold extractedName
    rw [splitFst_eq]
    have key : ∀ s : List Char, beforeSep ".mat".toList s = s ∨ ∃ t, s = beforeSep ".mat".toList s ++ '.' :: t := by
      intro s
      induction s with
      | nil => left; rfl
      | cons c l ih =>
        rw [beforeSep]
        by_cases h : ".mat".toList.isPrefixOf (c :: l) = true
        · rw [if_pos h]
          right
          obtain ⟨t, ht⟩ := List.isPrefixOf_iff_prefix.1 h
          exact ⟨"mat".toList ++ t, by rw [← ht]; rfl⟩
        · rw [if_neg h]
          rcases ih with h1 | ⟨t, h1⟩
          · left; rw [h1]
          · right; exact ⟨t, by rw [List.cons_append, ← h1]⟩
    intro h
    rcases key path with h1 | ⟨t, h1⟩
    · rw [h1] at h
      have := congrArg List.length h
      simp only [List.length_append] at this
      have h3 : "_extracted.mat".toList.length = 14 := by decide
      omega
    · have h2 := h.trans h1
      have h3 := List.append_cancel_left h2
      exact absurd (List.cons.inj h3).1 (by decide)
  · rintro stem rfl h2
    have e := splitFst_append '.' "mat".toList stem [] (by decide) h2
    rw [List.append_nil] at e
    unfold extractedName
    rw [show splitFst ".mat".toList (stem ++ ".mat".toList) = stem from e]

/-! ## C119 -/

theorem pathKey_slash (a b : List Char) (ha : a ≠ []) :
    pathKey (a ++ '/' :: b) = ((pathKey a).1, (pathKey a).2 ++ (splitGo ['/'] 0 [] b).filter keepComp) := by
  unfold pathKey
  rw [splitGo_char, List.filter_append]
  cases a with
  | nil => exact absurd rfl ha
  | cons c l => rfl

/-- A path inside a directory: the directory's components, then others. -/
def InFolder (folder path : List Char) : Prop :=
  (pathKey path).1 = (pathKey folder).1 ∧ ∃ r, r ≠ [] ∧ (pathKey path).2 = (pathKey folder).2 ++ r

/-- **C119, partial.** For the movies of the total charge and of the field, whatever the output folder: no step ever fails because
of a directory, after the first step the directory is there, and the files are put into it, inside the output folder. -/
theorem C119_movies_partial (folder : List Char) (hf : folder ≠ []) (v : Movie) (hv : v = .rho ∨ v = .field) (n : ℕ)
    (dirs : List (Bool × List (List Char))) :
    (∃ d, v.dirSteps folder (n + 1) dirs = .ok d ∧ pathKey (v.made folder) ∈ d ∧ ∀ x ∈ dirs, x ∈ d) ∧
    InFolder folder (v.made folder) ∧ ∀ i, InFolder (v.made folder) (v.file folder i) := by
  have hsm : v.sought folder = v.made folder := by rcases hv with rfl | rfl <;> rfl
  have hstay : ∀ (n : ℕ) (d : List (Bool × List (List Char))), pathKey (v.made folder) ∈ d → v.dirSteps folder n d = .ok d := by
    intro n
    induction n with
    | zero => intro d _; rfl
    | succ n ih =>
      intro d hd
      simp only [Movie.dirSteps, Movie.dirStep]
      rw [hsm, if_pos hd]
      exact ih d hd
  have hfile : ∀ (nm : List Char) (i : ℕ) (pre : List Char), '/' ∉ nm → '/' ∉ pre → 2 ≤ pre.length →
      InFolder (folder ++ '/' :: nm) (folder ++ '/' :: nm ++ '/' :: (pre ++ fmtD i ++ ".mat".toList)) := by
    intro nm i pre h1 h2 h3
    unfold InFolder
    have hne : folder ++ '/' :: nm ≠ [] := by simp
    rw [pathKey_slash _ _ hne]
    refine ⟨rfl, _, ?_, rfl⟩
    rw [splitGo_char_none]
    · have hl : 2 ≤ (pre ++ fmtD i ++ ".mat".toList).length := by simp only [List.length_append]; omega
      rw [List.reverse_nil, List.nil_append, List.filter_cons_of_pos]
      · simp
      · simp only [keepComp, decide_eq_true_eq]
        constructor
        · intro hc; rw [hc] at hl; simp at hl
        · intro hc; rw [hc] at hl; simp at hl
    · intro hm
      rw [List.mem_append, List.mem_append] at hm
      rcases hm with (hm | hm) | hm
      · exact h2 hm
      · exact fmtD_not i '/' (by decide) hm
      · exact absurd hm (by decide)
  refine ⟨?_, ?_, ?_⟩
  · simp only [Movie.dirSteps, Movie.dirStep]
    rw [hsm]
    by_cases hd : pathKey (v.made folder) ∈ dirs
    · rw [if_pos hd]
      exact ⟨dirs, hstay n dirs hd, hd, fun x hx => hx⟩
    · rw [if_neg hd, if_neg hd]
      exact ⟨_, hstay n _ (by simp), by simp, fun x hx => by simp [hx]⟩
  · rcases hv with rfl | rfl
    · have := pathKey_slash folder "rho_video".toList hf
      unfold InFolder
      rw [show Movie.made folder .rho = folder ++ '/' :: "rho_video".toList from rfl, this]
      exact ⟨rfl, _, by decide +kernel, rfl⟩
    · have := pathKey_slash folder "efield_video".toList hf
      unfold InFolder
      rw [show Movie.made folder .field = folder ++ '/' :: "efield_video".toList from rfl, this]
      exact ⟨rfl, _, by decide +kernel, rfl⟩
  · intro i
    rcases hv with rfl | rfl
    · have := hfile "rho_video".toList i "rho_pass".toList (by decide) (by decide) (by decide)
      rw [show Movie.made folder .rho = folder ++ '/' :: "rho_video".toList from rfl,
        show Movie.file folder i .rho = folder ++ '/' :: "rho_video".toList ++ '/' :: ("rho_pass".toList ++ fmtD i ++ ".mat".toList) by
          show folder ++ "/rho_video/rho_pass".toList ++ fmtD i ++ ".mat".toList = _
          rw [show "/rho_video/rho_pass".toList = '/' :: "rho_video".toList ++ '/' :: "rho_pass".toList by decide]
          simp]
      exact this
    · have := hfile "efield_video".toList i "efield_pass".toList (by decide) (by decide) (by decide)
      rw [show Movie.made folder .field = folder ++ '/' :: "efield_video".toList from rfl,
        show Movie.file folder i .field = folder ++ '/' :: "efield_video".toList ++ '/' :: ("efield_pass".toList ++ fmtD i ++ ".mat".toList) by
          show folder ++ "/efield_video/efield_pass".toList ++ fmtD i ++ ".mat".toList = _
          rw [show "/efield_video/efield_pass".toList = '/' :: "efield_video".toList ++ '/' :: "efield_pass".toList by decide]
          simp]
      exact this

/-- **C119, violated.** The movie of one cloud of several, with an output folder that does not end in a slash (which is every folder
the user gives): the first step makes a directory beside the folder, not in it, and the second step fails. -/
theorem C119_cloud_movies_violated (folder name : List Char) (c : Char) (hc : c ≠ '/') (hn : '/' ∉ name)
    (dirs : List (Bool × List (List Char)))
    (h1 : pathKey ((Movie.cloud name).sought (folder ++ [c])) ∉ dirs)
    (h2 : pathKey ((Movie.cloud name).made (folder ++ [c])) ∉ dirs) :
    (c ≠ '.' → ¬ InFolder (folder ++ [c]) ((Movie.cloud name).made (folder ++ [c]))) ∧
    (∃ d, (Movie.cloud name).dirSteps (folder ++ [c]) 1 dirs = .ok d) ∧
    ∀ n, (Movie.cloud name).dirSteps (folder ++ [c]) (n + 2) dirs = .error .custom := by
  obtain ⟨init, last, hsplit⟩ : ∃ (init : List (List Char)) (last : List Char),
      ∀ w, '/' ∉ w → splitGo ['/'] 0 [] (folder ++ [c] ++ w) = init ++ [last ++ [c] ++ w] := by
    by_cases hm : '/' ∈ folder
    · obtain ⟨a, b, hab, hb⟩ := last_slash folder hm
      refine ⟨splitGo ['/'] 0 [] a, b, ?_⟩
      intro w hw
      rw [hab, show a ++ '/' :: b ++ [c] ++ w = a ++ '/' :: (b ++ [c] ++ w) by simp, splitGo_char,
        splitGo_char_none _ (b ++ [c] ++ w) _ (by simp [hb, hw, Ne.symm hc])]
      rfl
    · refine ⟨[], folder, ?_⟩
      intro w hw
      rw [splitGo_char_none _ _ _ (by simp [hm, hw, Ne.symm hc])]
      rfl
  set w := "rho_video_".toList ++ name with hw
  have hw0 : '/' ∉ w := by
    rw [hw, List.mem_append]; rintro (h | h)
    · exact absurd h (by decide)
    · exact hn h
  have hwlen : 10 ≤ w.length := by rw [hw, List.length_append]; have : "rho_video_".toList.length = 10 := by decide
                                   omega
  have hmade : (Movie.cloud name).made (folder ++ [c]) = folder ++ [c] ++ w := by
    simp [Movie.made, hw]
  have hsought : (Movie.cloud name).sought (folder ++ [c]) = folder ++ [c] ++ '/' :: w := by
    simp only [Movie.sought, hw]
    rw [show "/rho_video_".toList = '/' :: "rho_video_".toList by decide]
    simp
  have hkeep : ∀ u : List Char, keepComp (u ++ w) = true := by
    intro u
    have hl : 10 ≤ (u ++ w).length := by rw [List.length_append]; omega
    unfold keepComp
    rw [decide_eq_true_eq]
    constructor
    · intro h; rw [h] at hl; simp at hl
    · intro h; rw [h] at hl; simp at hl
  have kmade : (pathKey ((Movie.cloud name).made (folder ++ [c]))).2 = init.filter keepComp ++ [last ++ [c] ++ w] := by
    rw [hmade]
    show (splitGo ['/'] 0 [] (folder ++ [c] ++ w)).filter keepComp = _
    rw [hsplit w hw0, List.filter_append, List.filter_cons_of_pos (hkeep _)]
    rfl
  have kfold : (pathKey (folder ++ [c])).2 = init.filter keepComp ++ [last ++ [c]].filter keepComp := by
    have := hsplit [] (by simp)
    rw [List.append_nil, List.append_nil] at this
    show (splitGo ['/'] 0 [] (folder ++ [c])).filter keepComp = _
    rw [this, List.filter_append]
  have ksought : (pathKey ((Movie.cloud name).sought (folder ++ [c]))).2 =
      init.filter keepComp ++ [last ++ [c]].filter keepComp ++ [w] := by
    rw [hsought, pathKey_slash _ _ (by simp)]
    show (pathKey (folder ++ [c])).2 ++ (splitGo ['/'] 0 [] w).filter keepComp = _
    rw [kfold, splitGo_char_none _ _ _ hw0]
    have := hkeep []
    rw [List.nil_append] at this
    rw [List.reverse_nil, List.nil_append, List.filter_cons_of_pos this]
    rfl
  have hne : pathKey ((Movie.cloud name).sought (folder ++ [c])) ≠ pathKey ((Movie.cloud name).made (folder ++ [c])) := by
    intro h
    have h := congrArg Prod.snd h
    rw [ksought, kmade] at h
    have h3 := congrArg List.getLast? h
    rw [List.getLast?_concat, List.getLast?_concat, Option.some.injEq] at h3
    have := congrArg List.length h3
    simp only [List.length_append, List.length_singleton] at this
    omega
  refine ⟨?_, ?_, ?_⟩
  · rintro hdot ⟨-, r, hr, h⟩
    have hk : keepComp (last ++ [c]) = true := by
      unfold keepComp
      rw [decide_eq_true_eq]
      refine ⟨by simp, ?_⟩
      intro h
      have := congrArg List.getLast? h
      rw [List.getLast?_concat] at this
      simp at this
      exact hdot this
    rw [kmade, kfold, List.filter_cons_of_pos hk, List.append_assoc (List.filter keepComp init)] at h
    have h := List.append_cancel_left h
    rw [List.filter_nil, List.singleton_append] at h
    have h4 := (List.cons.inj h).1
    have := congrArg List.length h4
    simp only [List.length_append, List.length_singleton] at this
    omega
  · refine ⟨pathKey ((Movie.cloud name).made (folder ++ [c])) :: dirs, ?_⟩
    simp only [Movie.dirSteps, Movie.dirStep]
    rw [if_neg h1, if_neg h2]
    rfl
  · intro n
    rw [show n + 2 = (n + 1) + 1 from rfl, Movie.dirSteps, Movie.dirStep, if_neg h1, if_neg h2]
    rw [show (Except.ok (pathKey ((Movie.cloud name).made (folder ++ [c])) :: dirs) >>= fun d =>
        (Movie.cloud name).dirSteps (folder ++ [c]) (n + 1) d) =
        (Movie.cloud name).dirSteps (folder ++ [c]) (n + 1) (pathKey ((Movie.cloud name).made (folder ++ [c])) :: dirs) from rfl]
    simp only [Movie.dirSteps, Movie.dirStep]
    rw [if_neg (by simp [hne, h1]), if_pos (by simp)]
    rfl

/-- **C119, the current directory.** With the default folder (`./`) the movies of the clouds work. -/
theorem C119_cloud_movies_default (name : List Char) (hn : '/' ∉ name) (n : ℕ) (dirs : List (Bool × List (List Char))) :
    (∃ d, (Movie.cloud name).dirSteps "./".toList (n + 1) dirs = .ok d ∧
      pathKey ((Movie.cloud name).made "./".toList) ∈ d) ∧
    InFolder "./".toList ((Movie.cloud name).made "./".toList) := by
  have hsm : pathKey ((Movie.cloud name).sought "./".toList) = pathKey ((Movie.cloud name).made "./".toList) := by
    simp only [Movie.sought, Movie.made]
    rw [show "./".toList ++ "/rho_video_".toList ++ name = ['.', '/'] ++ '/' :: ("rho_video_".toList ++ name) by
        rw [show "/rho_video_".toList = '/' :: "rho_video_".toList by decide]; simp,
      show "./".toList ++ "rho_video_".toList ++ name = ['.'] ++ '/' :: ("rho_video_".toList ++ name) by simp,
      pathKey_slash _ _ (by simp), pathKey_slash _ _ (by simp)]
    congr 1
  have hstay : ∀ (n : ℕ) (d : List (Bool × List (List Char))), pathKey ((Movie.cloud name).made "./".toList) ∈ d →
      (Movie.cloud name).dirSteps "./".toList n d = .ok d := by
    intro n
    induction n with
    | zero => intro d _; rfl
    | succ n ih =>
      intro d hd
      rw [Movie.dirSteps, Movie.dirStep, hsm, if_pos hd]
      exact ih d hd
  constructor
  · rw [Movie.dirSteps, Movie.dirStep, hsm]
    by_cases hd : pathKey ((Movie.cloud name).made "./".toList) ∈ dirs
    · rw [if_pos hd]
      exact ⟨dirs, hstay n dirs hd, hd⟩
    · rw [if_neg hd, if_neg hd]
      exact ⟨_, hstay n _ (by simp), by simp⟩
  · unfold InFolder
    simp only [Movie.made]
    rw [show "./".toList ++ "rho_video_".toList ++ name = ['.'] ++ '/' :: ("rho_video_".toList ++ name) by simp,
      pathKey_slash _ _ (by simp)]
    have hw0 : '/' ∉ "rho_video_".toList ++ name := by
      rw [List.mem_append]; rintro (h | h)
      · exact absurd h (by decide)
      · exact hn h
    refine ⟨show (pathKey ['.']).1 = (pathKey "./".toList).1 by decide, [("rho_video_".toList ++ name)], by simp, ?_⟩
    rw [splitGo_char_none _ _ _ hw0, List.reverse_nil, List.nil_append, List.filter_cons_of_pos]
    · rfl
    · unfold keepComp
      have hl : 2 ≤ ("rho_video_".toList ++ name).length := by
        have : "rho_video_".toList.length = 10 := by decide
        rw [List.length_append]; omega
      rw [decide_eq_true_eq]
      constructor
      · intro h; rw [h] at hl; simp at hl
      · intro h; rw [h] at hl; simp at hl

/-! ## Examples -/

example : iterName "out/cloud.mat".toList 12 = "out/cloud__iter12.mat".toList := by decide +kernel
example : ¬ Has ".mat" "out/cloud".toList ∧ ¬ Has "__iter" "out/cloud".toList := by decide +kernel
example : restartName "Pyecltest_restarted".toList "out/run.mat".toList = "out/run_restarted.mat".toList := by decide +kernel
example : ¬ Has "Pyecltest" "_restarted".toList ∧ ¬ Has "Pyecltest" "second_run".toList := by decide +kernel
example : restartName "second_run".toList "out/run.mat".toList = "out/runsecond_run.mat".toList := by decide +kernel
example : resumePath "a/b/run.mat".toList = "a/b/run.mat".toList ∧ resumePath "run.mat".toList = ".//run.mat".toList := by
  decide +kernel

/-- the hypotheses of the violation: folder `out`, no directories yet -/
example : (Movie.cloud "Ar".toList).dirSteps "out".toList 2 [pathKey "out".toList] = .error .custom ∧
    (Movie.cloud "Ar".toList).made "out".toList = "outrho_video_Ar".toList := by
  refine ⟨(C119_cloud_movies_violated "ou".toList "Ar".toList 't' (by decide) (by decide) _ (by decide +kernel)
    (by decide +kernel)).2.2 0, by decide +kernel⟩

end PyECLOUD
