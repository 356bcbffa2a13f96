import Verif.Model.ParamTables
import Verif.Lemmas.Impact
import Verif.Props.MPSystem

/-!
# Input parameters: C57, C79
-/

set_option linter.unusedSectionVars false

namespace PyECLOUD

variable {V W : Type}

theorem attr_cons (q : String × ModVal V) (m : Mod V) (n : String) :
    attr (q :: m) n = if q.1 = n then some q.2 else attr m n := by
  unfold attr
  by_cases h : q.1 = n
  · rw [List.find?_cons_of_pos (by simpa using h), if_pos h]; rfl
  · rw [List.find?_cons_of_neg (by simpa using h), if_neg h]

theorem attr_append (a b : Mod V) (n : String) : attr (a ++ b) n = (attr a n).or (attr b n) := by
  induction a with
  | nil => rfl
  | cons q a ih =>
    rw [List.cons_append, attr_cons, attr_cons, ih]
    split <;> rfl

theorem attr_none_iff (m : Mod V) (n : String) : attr m n = none ↔ n ∉ m.map (fun q => q.1) := by
  induction m with
  | nil => simp [attr]
  | cons q m ih =>
    rw [attr_cons, List.map_cons, List.mem_cons, not_or]
    by_cases h : q.1 = n
    · rw [if_pos h]; simp [h]
    · rw [if_neg h, ih]
      constructor
      · exact fun h' => ⟨fun h2 => h h2.symm, h'⟩
      · exact fun h' => h'.2

theorem attr_filter_ne (c : Mod V) (n k : String) (h : k ≠ n) :
    attr (c.filter (fun q => decide (q.1 ≠ n))) k = attr c k := by
  induction c with
  | nil => rfl
  | cons q c ih =>
    by_cases hq : q.1 = n
    · rw [List.filter_cons_of_neg (by simp [hq]), ih, attr_cons, if_neg (by rw [hq]; exact h.symm)]
    · rw [List.filter_cons_of_pos (by simpa using hq), attr_cons, attr_cons, ih]

theorem attr_dictSet (c : Mod V) (n k : String) (v : ModVal V) :
    attr (dictSet c n v) k = if k = n then some v else attr c k := by
  unfold dictSet
  rw [attr_append, attr_cons]
  by_cases h : k = n
  · subst h
    rw [if_pos rfl, if_pos rfl, (attr_none_iff _ _).2]
    · rfl
    · simp
  · rw [if_neg h, if_neg (fun h' => h h'.symm), attr_filter_ne c n k h]
    cases attr c k <;> rfl

/-- a name is a parameter of a module -/
theorem mem_contents (m : Mod V) (hn : (m.map (fun q => q.1)).Nodup) (n : String) :
    n ∈ contents m ↔ isPublic n = true ∧ ∃ v, attr m n = some (.val v) := by
  induction m with
  | nil => simp [contents, attr]
  | cons q m ih =>
    obtain ⟨h1, h2⟩ := List.nodup_cons.1 hn
    have ih := ih h2
    unfold contents at ih ⊢
    rw [attr_cons]
    by_cases hq : q.1 = n
    · rw [if_pos hq]
      have hnot : n ∉ List.map (fun q => q.1) (List.filter (fun q => isPublic q.1 && q.2.isVal) m) := by
        intro hc
        obtain ⟨q', hq', e⟩ := List.mem_map.1 hc
        apply h1
        show q.1 ∈ _
        rw [hq, ← e]
        exact List.mem_map_of_mem (List.mem_of_mem_filter hq')
      rw [List.filter_cons]
      obtain ⟨a, b⟩ := q
      simp only at hq hnot ⊢
      subst hq
      cases b with
      | val v =>
        cases hp : isPublic a
        · simp only [Bool.false_and, Bool.false_eq_true, if_false, false_and, iff_false]
          exact hnot
        · simp [ModVal.isVal]
      | mod =>
        simp only [ModVal.isVal, Bool.and_false, Bool.false_eq_true, if_false]
        constructor
        · exact fun h => absurd h hnot
        · rintro ⟨-, v, hv⟩; cases hv
    · rw [if_neg hq, ← ih, List.filter_cons]
      split
      · rw [List.map_cons, List.mem_cons]
        constructor
        · rintro (h | h)
          · exact absurd h.symm hq
          · exact h
        · exact Or.inr
      · rfl

/-- **C57**: an input module is accepted exactly when it provides every mandatory parameter, and every parameter it provides is
mandatory, optional or a superparameter. A parameter of a module is a public attribute that is not itself a module. -/
theorem C57_accept_iff (t : ParamTbl W) (m : Mod V) (hn : (m.map (fun q => q.1)).Nodup) :
    assertParams t m = .ok () ↔
      (∀ n ∈ t.mandatory, isPublic n = true ∧ ∃ v, attr m n = some (.val v)) ∧
      (∀ n v, isPublic n = true → attr m n = some (.val v) →
        n ∈ t.mandatory ∨ (∃ d, (n, d) ∈ t.optional) ∨ n ∈ t.super) := by
  have hopt : ∀ n, n ∈ t.optNames ↔ ∃ d, (n, d) ∈ t.optional := by
    intro n
    unfold ParamTbl.optNames
    simp
  unfold assertParams
  simp only
  constructor
  · intro h
    by_cases hc : (contents m).filter (fun n => decide (n ∉ t.allowed)) ≠ [] ∨
        t.mandatory.filter (fun n => decide (n ∉ contents m)) ≠ []
    · rw [if_pos hc] at h; cases h
    · rw [not_or, not_not, not_not, List.filter_eq_nil_iff, List.filter_eq_nil_iff] at hc
      obtain ⟨h1, h2⟩ := hc
      refine ⟨fun n hm => ?_, fun n v hp hv => ?_⟩
      · have := h2 n hm
        simp only [decide_eq_true_eq, not_not] at this
        exact (mem_contents m hn n).1 this
      · have := h1 n ((mem_contents m hn n).2 ⟨hp, v, hv⟩)
        simp only [decide_eq_true_eq, not_not, ParamTbl.allowed, List.mem_append] at this
        rcases this with (h | h) | h
        · exact Or.inl h
        · exact Or.inr (Or.inl ((hopt n).1 h))
        · exact Or.inr (Or.inr h)
  · rintro ⟨h1, h2⟩
    rw [if_neg]
    rw [not_or, not_not, not_not, List.filter_eq_nil_iff, List.filter_eq_nil_iff]
    refine ⟨fun n hc => ?_, fun n hm => ?_⟩
    · obtain ⟨hp, v, hv⟩ := (mem_contents m hn n).1 hc
      simp only [decide_eq_true_eq, not_not, ParamTbl.allowed, List.mem_append]
      rcases h2 n v hp hv with h | h | h
      · exact Or.inl (Or.inl h)
      · exact Or.inl (Or.inr ((hopt n).2 h))
      · exact Or.inr h
    · simp only [decide_eq_true_eq, not_not]
      exact (mem_contents m hn n).2 (h1 n hm)

/-- the attributes of a second file that are joined to the first -/
def Joined (new : Mod V) (n : String) (v : V) : Prop := n ≠ "pi" ∧ isPublic n = true ∧ attr new n = some (.val v)

/-- joining two files -/
theorem updateModule_spec (new m : Mod V) (hnew : (new.map (fun q => q.1)).Nodup) :
    (∀ m', updateModule m new = .ok m' →
      (∀ n v, Joined new n v → attr m n = none) ∧
      (∀ n, (∀ v, ¬ Joined new n v) → attr m' n = attr m n) ∧
      (∀ n v, Joined new n v → attr m' n = some (.val v)) ∧
      ((m.map (fun q => q.1)).Nodup → (m'.map (fun q => q.1)).Nodup)) ∧
    ((∀ n v, Joined new n v → attr m n = none) → ∃ m', updateModule m new = .ok m') := by
  induction new generalizing m with
  | nil =>
    refine ⟨fun m' h => ?_, fun _ => ⟨m, rfl⟩⟩
    cases h
    refine ⟨?_, fun _ _ => rfl, ?_, fun h => h⟩
    · rintro n v ⟨-, -, h⟩; cases h
    · rintro n v ⟨-, -, h⟩; cases h
  | cons q new ih =>
    obtain ⟨h1, h2⟩ := List.nodup_cons.1 hnew
    obtain ⟨a, b⟩ := q
    have hfresh : attr new a = none := (attr_none_iff new a).2 h1
    -- skipped entries
    have hskip : (a = "pi" ∨ isPublic a = false ∨ b.isVal = false) → ∀ n v, Joined ((a, b) :: new) n v ↔ Joined new n v := by
      intro hs n v
      unfold Joined
      rw [attr_cons]
      by_cases hna : a = n
      · subst hna
        rw [if_pos rfl, hfresh]
        constructor
        · rintro ⟨x1, x2, x3⟩
          rcases hs with hs | hs | hs
          · exact absurd hs x1
          · rw [hs] at x2; cases x2
          · have x4 : b = .val v := Option.some.inj x3
            rw [x4] at hs; cases hs
        · rintro ⟨-, -, x3⟩; cases x3
      · rw [if_neg hna]
    have hcase : (updateModule m ((a, b) :: new) = updateModule m new ∧ ∀ n v, Joined ((a, b) :: new) n v ↔ Joined new n v) ∨
        ∃ v0, b = .val v0 ∧ a ≠ "pi" ∧ isPublic a = true ∧
          updateModule m ((a, b) :: new) = if (attr m a).isSome then .error .config else updateModule (m ++ [(a, b)]) new := by
      by_cases hpi : a = "pi"
      · left
        exact ⟨by simp only [updateModule, if_pos hpi], hskip (Or.inl hpi)⟩
      · by_cases hs : isPublic a = false ∨ b.isVal = false
        · left
          exact ⟨by simp only [updateModule, if_neg hpi, if_pos hs], hskip (Or.inr hs)⟩
        · right
          have hs' := not_or.1 hs
          cases b with
          | mod => exact absurd rfl hs'.2
          | val v0 =>
            refine ⟨v0, rfl, hpi, by simpa using hs'.1, ?_⟩
            simp only [updateModule, if_neg hpi, if_neg hs]
    rcases hcase with ⟨he, hj⟩ | ⟨v0, rfl, hpi, hpub, he⟩
    · rw [he]
      obtain ⟨i1, i2⟩ := ih m h2
      refine ⟨fun m' hm' => ?_, fun h => i2 (fun n v hj' => h n v ((hj n v).2 hj'))⟩
      obtain ⟨j1, j2, j3, j4⟩ := i1 m' hm'
      exact ⟨fun n v h => j1 n v ((hj n v).1 h), fun n h => j2 n (fun v hv => h v ((hj n v).2 hv)),
        fun n v h => j3 n v ((hj n v).1 h), j4⟩
    · rw [he]
      obtain ⟨i1, i2⟩ := ih (m ++ [(a, .val v0)]) h2
      have hj0 : Joined ((a, .val v0) :: new) a v0 := ⟨hpi, hpub, by rw [attr_cons, if_pos rfl]⟩
      have hj : ∀ n v, n ≠ a → (Joined ((a, .val v0) :: new) n v ↔ Joined new n v) := by
        intro n v hna
        unfold Joined
        rw [attr_cons, if_neg (fun h => hna h.symm)]
      have hm1 : ∀ n, n ≠ a → attr (m ++ [(a, ModVal.val v0)]) n = attr m n := by
        intro n hna
        rw [attr_append, attr_cons, if_neg (fun h => hna h.symm)]
        cases attr m n <;> rfl
      refine ⟨fun m' hm' => ?_, fun h => ?_⟩
      · by_cases hs : (attr m a).isSome = true
        · rw [if_pos hs] at hm'; cases hm'
        · rw [if_neg hs] at hm'
          have hna : attr m a = none := by simpa using hs
          obtain ⟨j1, j2, j3, j4⟩ := i1 m' hm'
          have hnotj : ∀ v, ¬ Joined new a v := by
            rintro v ⟨-, -, hx⟩
            rw [hfresh] at hx; cases hx
          refine ⟨fun n v h => ?_, fun n h => ?_, fun n v h => ?_, fun h => j4 ?_⟩
          · by_cases e : n = a
            · rw [e]; exact hna
            · rw [← hm1 n e]; exact j1 n v ((hj n v e).1 h)
          · by_cases e : n = a
            · subst e; exact absurd hj0 (h v0)
            · rw [j2 n (fun v hv => h v ((hj n v e).2 hv)), hm1 n e]
          · by_cases e : n = a
            · subst e
              rw [j2 n hnotj, attr_append, hna, attr_cons, if_pos rfl]
              have := h.2.2
              rw [attr_cons, if_pos rfl] at this
              exact this
            · exact j3 n v ((hj n v e).1 h)
          · rw [List.map_append, List.nodup_append]
            refine ⟨h, by simp, ?_⟩
            intro x hx y hy
            simp only [List.map_cons, List.map_nil, List.mem_singleton] at hy
            rw [hy]
            intro hxa
            rw [hxa] at hx
            exact (attr_none_iff m a).1 hna hx
      · have hna := h a v0 hj0
        rw [if_neg (by rw [hna]; simp)]
        refine i2 (fun n v hv => ?_)
        have e : n ≠ a := by
          rintro rfl
          have := hv.2.2
          rw [hfresh] at this; cases this
        rw [hm1 n e]
        exact h n v ((hj n v e).2 hv)

/-- **C57**: joining a second input file to a first succeeds exactly when no parameter of the second (other than `pi`) is
already defined in the first. -/
theorem C57_join_iff (m new : Mod V) (hnew : (new.map (fun q => q.1)).Nodup) :
    (∃ m', updateModule m new = .ok m') ↔
      ∀ n v, n ≠ "pi" → isPublic n = true → attr new n = some (.val v) → attr m n = none := by
  obtain ⟨h1, h2⟩ := updateModule_spec new m hnew
  constructor
  · rintro ⟨m', hm'⟩ n v a b c
    exact (h1 m' hm').1 n v ⟨a, b, c⟩
  · intro h
    exact h2 (fun n v ⟨a, b, c⟩ => h n v a b c)

theorem cfgMandatory_spec (m : Mod V) (l : List String) (c : Mod V) (h : ∀ p ∈ l, (attr m p).isSome = true) :
    ∃ c', cfgMandatory m c l = .ok c' ∧ ∀ n, attr c' n = if n ∈ l then attr m n else attr c n := by
  induction l generalizing c with
  | nil => exact ⟨c, rfl, fun n => by simp⟩
  | cons p l ih =>
    obtain ⟨v, hv⟩ := Option.isSome_iff_exists.1 (h p (by simp))
    obtain ⟨c', h1, h2⟩ := ih (dictSet c p v) (fun p' hp' => h p' (List.mem_cons_of_mem _ hp'))
    refine ⟨c', by simp only [cfgMandatory, hv]; exact h1, fun n => ?_⟩
    rw [h2, attr_dictSet]
    by_cases hl : n ∈ l
    · rw [if_pos hl, if_pos (List.mem_cons_of_mem _ hl)]
    · rw [if_neg hl]
      by_cases hp : n = p
      · rw [if_pos hp, if_pos (by rw [hp]; simp), hp, hv]
      · rw [if_neg hp, if_neg (by simp [hp, hl])]

theorem cfgMandatory_fail (m : Mod V) (l : List String) (c : Mod V) (h : ∃ p ∈ l, attr m p = none) :
    cfgMandatory m c l = .error .attribute := by
  induction l generalizing c with
  | nil => obtain ⟨p, hp, -⟩ := h; cases hp
  | cons p l ih =>
    unfold cfgMandatory
    cases hv : attr m p with
    | none => rfl
    | some v =>
      obtain ⟨p', hp', hn⟩ := h
      rcases List.mem_cons.1 hp' with rfl | hp'
      · rw [hv] at hn; cases hn
      · exact ih _ ⟨p', hp', hn⟩

theorem cfgOptional_spec (m : Mod V) (dflt : Option (Mod V)) (l : List (String × V)) (c : Mod V)
    (hnd : (l.map (fun q => q.1)).Nodup) (h : ∀ q ∈ l, attr c q.1 = none) :
    ∃ c', cfgOptional m dflt c l = .ok c' ∧ (∀ q ∈ l, attr c' q.1 = some (optValue m dflt q.1 q.2)) ∧
      ∀ n, n ∉ l.map (fun q => q.1) → attr c' n = attr c n := by
  induction l generalizing c with
  | nil => exact ⟨c, rfl, by simp, fun n _ => rfl⟩
  | cons q l ih =>
    obtain ⟨p, d⟩ := q
    obtain ⟨n1, n2⟩ := List.nodup_cons.1 hnd
    obtain ⟨c', h1, h2, h3⟩ := ih (dictSet c p (optValue m dflt p d)) n2 (fun q hq => by
      rw [attr_dictSet, if_neg, h q (List.mem_cons_of_mem _ hq)]
      intro e
      exact n1 (by show p ∈ _; rw [← e]; exact List.mem_map_of_mem hq))
    refine ⟨c', ?_, ?_, ?_⟩
    · have := h (p, d) (by simp)
      simp only at this
      simp only [cfgOptional, this]
      exact h1
    · intro q hq
      rcases List.mem_cons.1 hq with rfl | hq
      · rw [h3 p n1, attr_dictSet, if_pos rfl]
      · exact h2 q hq
    · intro n hn
      simp only [List.map_cons, List.mem_cons, not_or] at hn
      rw [h3 n hn.2, attr_dictSet, if_neg hn.1]

/-- A table is consistent: no parameter twice. -/
structure ParamTbl.Ok (t : ParamTbl V) : Prop where
  opt : (t.optional.map (fun q => q.1)).Nodup
  disj : ∀ q ∈ t.optional, q.1 ∉ t.mandatory
  pub : ∀ n ∈ t.mandatory, isPublic n = true

/-- **C57**: the tables in use are consistent. -/
theorem C57_tables : simTbl.Ok ∧ machTbl.Ok ∧ secTbl.Ok ∧ combTbl.Ok ∧ beamTbl.Ok ∧ cloudTbl.Ok := by
  refine ⟨⟨?_, ?_, ?_⟩, ⟨?_, ?_, ?_⟩, ⟨?_, ?_, ?_⟩, ⟨?_, ?_, ?_⟩, ⟨?_, ?_, ?_⟩, ⟨?_, ?_, ?_⟩⟩ <;> decide +kernel

/-- **C57**: for an accepted module the configuration holds every parameter of the table and no other name: the input value if
given, else the value of the fallback object if it has one, else the default. -/
theorem C57_values (t : ParamTbl V) (ht : t.Ok) (m : Mod V) (hn : (m.map (fun q => q.1)).Nodup)
    (hacc : assertParams t m = .ok ()) (dflt : Option (Mod V)) :
    ∃ c, updateConfig t m dflt [] = .ok c ∧
      (∀ n ∈ t.mandatory, ∃ v, attr m n = some (.val v) ∧ attr c n = some (.val v)) ∧
      (∀ n d, (n, d) ∈ t.optional → attr c n = some ((attr m n).getD ((dflt.bind (fun o => attr o n)).getD (.val d)))) ∧
      (∀ n, n ∉ t.mandatory → n ∉ t.optNames → attr c n = none) := by
  have hm := ((C57_accept_iff t m hn).1 hacc).1
  obtain ⟨c1, h1, h2⟩ := cfgMandatory_spec m t.mandatory [] (fun p hp => by
    obtain ⟨-, v, hv⟩ := hm p hp
    rw [hv]; rfl)
  obtain ⟨c, g1, g2, g3⟩ := cfgOptional_spec m dflt t.optional c1 ht.opt (fun q hq => by
    rw [h2, if_neg (ht.disj q hq)]; rfl)
  refine ⟨c, ?_, ?_, ?_, ?_⟩
  · unfold updateConfig
    rw [h1]
    exact g1
  · intro n hmn
    obtain ⟨-, v, hv⟩ := hm n hmn
    refine ⟨v, hv, ?_⟩
    rw [g3 n, h2, if_pos hmn, hv]
    intro hc
    obtain ⟨q, hq, rfl⟩ := List.mem_map.1 hc
    exact ht.disj q hq hmn
  · intro n d hd
    rw [g2 (n, d) hd]
    congr 1
    simp only [optValue]
    cases attr m n with
    | some v => rfl
    | none =>
      cases dflt with
      | none => rfl
      | some o =>
        simp only [Option.bind_some, Option.getD_none]
        cases attr o n <;> rfl
  · intro n hmn hon
    rw [g3 n hon, h2, if_neg hmn]
    rfl

/-- **C57**: an optional parameter that already is in the configuration is refused. -/
theorem C57_duplicate (m : Mod V) (dflt : Option (Mod V)) (l : List (String × V)) (c : Mod V) (n : String) (d : V)
    (hd : (n, d) ∈ l) (hc : (attr c n).isSome = true) : ∃ e, cfgOptional m dflt c l = .error e := by
  induction l generalizing c with
  | nil => cases hd
  | cons q l ih =>
    obtain ⟨p, d'⟩ := q
    unfold cfgOptional
    by_cases hp : (attr c p).isSome = true
    · rw [if_pos hp]; exact ⟨_, rfl⟩
    · rw [if_neg hp]
      rcases List.mem_cons.1 hd with h | h
      · obtain ⟨rfl, rfl⟩ := Prod.mk.injEq .. ▸ h
        exact absurd hc hp
      · refine ih _ h ?_
        rw [attr_dictSet]
        split
        · rfl
        · exact hc

/-- **C57**: a configuration read from the three main input files gives every parameter the value from the file that defines
it, or else its default; and no parameter is defined in two files. -/
theorem C57_read_files (t : ParamTbl V) (ht : t.Ok) (hpi : "pi" ∉ t.mandatory ∧ "pi" ∉ t.optNames) (sim mach sec : Mod V)
    (n1 : (sim.map (fun q => q.1)).Nodup) (n2 : (mach.map (fun q => q.1)).Nodup) (n3 : (sec.map (fun q => q.1)).Nodup)
    (hpub : ∀ q ∈ t.optional, isPublic q.1 = true) (c : Mod V) (hok : readParams t sim mach sec = .ok c) :
    (∀ n v, (n ∈ t.mandatory ∨ n ∈ t.optNames) →
      (attr sim n = some (.val v) ∨ attr mach n = some (.val v) ∨ attr sec n = some (.val v)) → attr c n = some (.val v)) ∧
    (∀ n d, (n, d) ∈ t.optional → attr sim n = none → attr mach n = none → attr sec n = none →
      attr c n = some (.val d)) ∧
    (∀ n ∈ t.mandatory, ∃ v, attr sim n = some (.val v) ∨ attr mach n = some (.val v) ∨ attr sec n = some (.val v)) ∧
    (∀ n v, n ≠ "pi" → isPublic n = true → (attr mach n = some (.val v) → attr sim n = none) ∧
      (attr sec n = some (.val v) → attr sim n = none ∧ ∀ w, attr mach n ≠ some (.val w))) := by
  unfold readParams at hok
  by_cases hf : (attr sim "machine_param_file").isNone = true ∨ (attr sim "secondary_emission_parameters_file").isNone = true ∨
      (attr sim "beam_parameters_file").isNone = true
  · rw [if_pos hf] at hok; cases hok
  · rw [if_neg hf] at hok
    cases h1 : updateModule sim mach with
    | error e => rw [h1] at hok; cases hok
    | ok m1 =>
      rw [h1] at hok
      cases h2 : updateModule m1 sec with
      | error e => simp only [bind, Except.bind, h2] at hok; cases hok
      | ok m2 =>
        simp only [bind, Except.bind, h2] at hok
        cases h3 : assertParams t m2 with
        | error e => rw [h3] at hok; cases hok
        | ok u =>
          rw [h3] at hok
          simp only at hok
          obtain ⟨a1, a2, a3, a4⟩ := (updateModule_spec mach sim n2).1 m1 h1
          obtain ⟨b1, b2, b3, b4⟩ := (updateModule_spec sec m1 n3).1 m2 h2
          have hnd := b4 (a4 n1)
          obtain ⟨c', hc', c1, c2, c3⟩ := C57_values t ht m2 hnd (by rw [h3]) none
          rw [hc'] at hok
          have := Except.ok.inj hok
          subst this
          have hpn : ∀ n, (n ∈ t.mandatory ∨ n ∈ t.optNames) → n ≠ "pi" ∧ isPublic n = true := by
            intro n hn
            rcases hn with hn | hn
            · exact ⟨fun e => hpi.1 (e ▸ hn), ht.pub n hn⟩
            · refine ⟨fun e => hpi.2 (e ▸ hn), ?_⟩
              obtain ⟨q, hq, rfl⟩ := List.mem_map.1 hn
              exact hpub q hq
          -- value of a parameter in the joined module
          have hjoin : ∀ n v, n ≠ "pi" → isPublic n = true →
              (attr sim n = some (.val v) ∨ attr mach n = some (.val v) ∨ attr sec n = some (.val v)) →
              attr m2 n = some (.val v) := by
            intro n v e1 e2 h
            by_cases hs : ∃ w, attr sec n = some (.val w)
            · obtain ⟨w, hw⟩ := hs
              have hnone := b1 n w ⟨e1, e2, hw⟩
              have hres := b3 n w ⟨e1, e2, hw⟩
              rcases h with h | h | h
              · exfalso
                by_cases hm : ∃ x, attr mach n = some (.val x)
                · obtain ⟨x, hx⟩ := hm
                  rw [a1 n x ⟨e1, e2, hx⟩] at h; cases h
                · rw [a2 n (fun x hx => hm ⟨x, hx.2.2⟩), h] at hnone; cases hnone
              · rw [a3 n v ⟨e1, e2, h⟩] at hnone; cases hnone
              · rw [hres, ← hw, h]
            · rw [b2 n (fun w hw => hs ⟨w, hw.2.2⟩)]
              by_cases hm : ∃ x, attr mach n = some (.val x)
              · obtain ⟨x, hx⟩ := hm
                rw [a3 n x ⟨e1, e2, hx⟩]
                rcases h with h | h | h
                · rw [a1 n x ⟨e1, e2, hx⟩] at h; cases h
                · rw [← hx, h]
                · exact absurd ⟨v, h⟩ hs
              · rw [a2 n (fun x hx => hm ⟨x, hx.2.2⟩)]
                rcases h with h | h | h
                · exact h
                · exact absurd ⟨v, h⟩ hm
                · exact absurd ⟨v, h⟩ hs
          have hval : ∀ n v, (n ∈ t.mandatory ∨ n ∈ t.optNames) → attr m2 n = some (.val v) → attr c' n = some (.val v) := by
            intro n v hn hv
            rcases hn with hn | hn
            · obtain ⟨w, hw, hw'⟩ := c1 n hn
              rw [hw', ← hw, hv]
            · obtain ⟨q, hq, rfl⟩ := List.mem_map.1 hn
              rw [c2 q.1 q.2 hq, hv]
              rfl
          refine ⟨?_, ?_, ?_, ?_⟩
          · intro n v hn h
            exact hval n v hn (hjoin n v (hpn n hn).1 (hpn n hn).2 h)
          · intro n d hd s1 s2 s3
            rw [c2 n d hd, b2 n (fun v hv => by have := hv.2.2; rw [s3] at this; cases this),
              a2 n (fun v hv => by have := hv.2.2; rw [s2] at this; cases this), s1]
            rfl
          · intro n hn
            obtain ⟨v, hv, -⟩ := c1 n hn
            refine ⟨v, ?_⟩
            by_cases hs : ∃ w, attr sec n = some (.val w)
            · obtain ⟨w, hw⟩ := hs
              rw [b3 n w ⟨(hpn n (Or.inl hn)).1, (hpn n (Or.inl hn)).2, hw⟩] at hv
              right; right
              rw [hw, hv]
            · rw [b2 n (fun w hw => hs ⟨w, hw.2.2⟩)] at hv
              by_cases hm : ∃ x, attr mach n = some (.val x)
              · obtain ⟨x, hx⟩ := hm
                rw [a3 n x ⟨(hpn n (Or.inl hn)).1, (hpn n (Or.inl hn)).2, hx⟩] at hv
                right; left
                rw [hx, hv]
              · rw [a2 n (fun x hx => hm ⟨x, hx.2.2⟩)] at hv
                exact Or.inl hv
          · intro n v e1 e2
            refine ⟨fun h => a1 n v ⟨e1, e2, h⟩, fun h => ?_⟩
            have hnone := b1 n v ⟨e1, e2, h⟩
            by_cases hm : ∃ x, attr mach n = some (.val x)
            · obtain ⟨x, hx⟩ := hm
              rw [a3 n x ⟨e1, e2, hx⟩] at hnone; cases hnone
            · rw [a2 n (fun x hx => hm ⟨x, hx.2.2⟩)] at hnone
              exact ⟨hnone, fun w hw => hm ⟨w, hw⟩⟩

/-- the hypotheses on the tables hold for the table of the main input files -/
example : combTbl.Ok ∧ "pi" ∉ combTbl.mandatory ∧ "pi" ∉ combTbl.optNames ∧ (∀ q ∈ combTbl.optional, isPublic q.1 = true) ∧
    (∀ q ∈ cloudTbl.optional, isPublic q.1 = true) :=
  ⟨C57_tables.2.2.2.1, by decide +kernel, by decide +kernel, by decide +kernel, by decide +kernel⟩

/-- **C57**: keyword arguments are accepted exactly when they are ignored or name a parameter of the configuration, and then
override its value and no other. -/
theorem C57_kwargs (ignore : List String) (kw c : Mod V) (hn : (kw.map (fun q => q.1)).Nodup) :
    ((∃ q ∈ kw, q.1 ∉ ignore ∧ attr c q.1 = none) → overrideKw ignore c kw = .error .config) ∧
    ((∀ q ∈ kw, q.1 ∉ ignore → (attr c q.1).isSome = true) →
      ∃ c', overrideKw ignore c kw = .ok c' ∧
        ∀ n, attr c' n = if n ∈ ignore then attr c n else (attr kw n).or (attr c n)) := by
  induction kw generalizing c with
  | nil =>
    refine ⟨fun h => ?_, fun _ => ⟨c, rfl, fun n => ?_⟩⟩
    · obtain ⟨q, hq, -⟩ := h
      cases hq
    have : attr ([] : Mod V) n = none := rfl
    rw [this]
    simp
  | cons q kw ih =>
    obtain ⟨a, b⟩ := q
    obtain ⟨h1, h2⟩ := List.nodup_cons.1 hn
    have hk : attr kw a = none := (attr_none_iff kw a).2 h1
    by_cases hi : a ∈ ignore
    · have he : overrideKw ignore c ((a, b) :: kw) = overrideKw ignore c kw := by simp only [overrideKw, if_pos hi]
      rw [he]
      obtain ⟨i1, i2⟩ := ih c h2
      refine ⟨fun ⟨q, hq, hq1, hq2⟩ => ?_, fun h => ?_⟩
      · rcases List.mem_cons.1 hq with rfl | hq
        · exact absurd hi hq1
        · exact i1 ⟨q, hq, hq1, hq2⟩
      · obtain ⟨c', g1, g2⟩ := i2 (fun q hq => h q (List.mem_cons_of_mem _ hq))
        refine ⟨c', g1, fun n => ?_⟩
        rw [g2, attr_cons]
        by_cases hni : n ∈ ignore
        · rw [if_pos hni, if_pos hni]
        · rw [if_neg hni, if_neg hni, if_neg (fun e : a = n => hni (e ▸ hi))]
    · by_cases hs : (attr c a).isSome = true
      · have he : overrideKw ignore c ((a, b) :: kw) = overrideKw ignore (dictSet c a b) kw := by
          simp only [overrideKw, if_neg hi, if_pos hs]
        rw [he]
        obtain ⟨i1, i2⟩ := ih (dictSet c a b) h2
        have hset : ∀ n, (attr (dictSet c a b) n).isSome = (attr c n).isSome := by
          intro n
          rw [attr_dictSet]
          by_cases e : n = a
          · rw [if_pos e, e, hs]; rfl
          · rw [if_neg e]
        refine ⟨fun ⟨q, hq, hq1, hq2⟩ => ?_, fun h => ?_⟩
        · rcases List.mem_cons.1 hq with rfl | hq
          · simp only at hq2
            rw [hq2] at hs; cases hs
          · refine i1 ⟨q, hq, hq1, ?_⟩
            have := hset q.1
            rw [hq2] at this
            simpa using this
        · obtain ⟨c', g1, g2⟩ := i2 (fun q hq hq1 => by rw [hset]; exact h q (List.mem_cons_of_mem _ hq) hq1)
          refine ⟨c', g1, fun n => ?_⟩
          rw [g2, attr_dictSet, attr_cons]
          by_cases hni : n ∈ ignore
          · rw [if_pos hni, if_pos hni, if_neg (fun e : n = a => hi (e ▸ hni))]
          · rw [if_neg hni, if_neg hni]
            by_cases e : n = a
            · rw [if_pos e, if_pos e.symm, e, hk]; rfl
            · rw [if_neg e, if_neg (fun h => e h.symm)]
      · have he : overrideKw ignore c ((a, b) :: kw) = .error .config := by
          simp only [overrideKw, if_neg hi, if_neg hs]
        rw [he]
        refine ⟨fun _ => rfl, fun h => ?_⟩
        exact absurd (h (a, b) (by simp) hi) hs

/-- **C79**: an additional cloud takes each of its parameters from its own file if given there, and otherwise from the main
input; its file must give the mandatory ones. `hmain` says that the main configuration has all the names, which holds for
the tables in use (`C79_tables`). -/
theorem C79_cloud_file (t : ParamTbl V) (ht : t.Ok) (f main : Mod V) (hn : (f.map (fun q => q.1)).Nodup)
    (hmain : ∀ n ∈ t.mandatory ++ t.optNames, (attr main n).isSome = true) (hacc : assertParams t f = .ok ()) (outp name : V) :
    ∃ c, cloudConfig t (some f) main outp name = .ok c ∧
      (∀ n ∈ t.mandatory ++ t.optNames, n ≠ "filen_main_outp" → n ≠ "cloud_name" →
        attr c n = (attr f n).or (attr main n)) ∧
      (∀ n ∈ t.mandatory, (attr f n).isSome = true) ∧
      attr c "filen_main_outp" = some (.val outp) ∧ attr c "cloud_name" = some (.val name) := by
  obtain ⟨c, h1, h2, h3, -⟩ := C57_values t ht f hn hacc (some main)
  refine ⟨_, by unfold cloudConfig; simp only [bind, Except.bind, hacc, h1]; rfl, ?_, ?_, ?_, ?_⟩
  · intro n hn e1 e2
    rw [attr_dictSet, if_neg e2, attr_dictSet, if_neg e1]
    rcases List.mem_append.1 hn with hm | ho
    · obtain ⟨v, hv, hv'⟩ := h2 n hm
      rw [hv', hv]; rfl
    · obtain ⟨q, hq, rfl⟩ := List.mem_map.1 ho
      rw [h3 q.1 q.2 hq]
      obtain ⟨w, hw⟩ := Option.isSome_iff_exists.1 (hmain _ hn)
      rw [Option.bind_some, hw]
      cases attr f q.1 <;> rfl
  · intro n hm
    obtain ⟨v, hv, -⟩ := h2 n hm
    rw [hv]; rfl
  · rw [attr_dictSet, if_neg (by decide +kernel), attr_dictSet, if_pos rfl]
  · rw [attr_dictSet, if_pos rfl]

/-- **C79**: the default cloud takes all its parameters from the main input. -/
theorem C79_default_cloud (t : ParamTbl V) (main : Mod V)
    (hmain : ∀ n ∈ t.mandatory ++ t.optNames, (attr main n).isSome = true) (outp name : V) :
    ∃ c, cloudConfig t none main outp name = .ok c ∧
      (∀ n ∈ t.mandatory ++ t.optNames, n ≠ "filen_main_outp" → n ≠ "cloud_name" → attr c n = attr main n) := by
  obtain ⟨c, h1, h2⟩ := cfgMandatory_spec main (t.mandatory ++ t.optNames) [] hmain
  refine ⟨_, by unfold cloudConfig copyConfig; simp only [bind, Except.bind, h1]; rfl, fun n hn e1 e2 => ?_⟩
  rw [attr_dictSet, if_neg e2, attr_dictSet, if_neg e1, h2, if_pos hn]

/-- **C79**: every parameter of an additional cloud is a parameter of the main input, so that the main configuration has a value
for it. -/
theorem C79_tables : ∀ n ∈ cloudTbl.mandatory ++ cloudTbl.optNames, n ∈ combTbl.mandatory ++ combTbl.optNames := by
  decide +kernel

/-- **C79**: every configuration read from the main input files has all the parameters of a cloud. -/
theorem C79_main_complete (sim mach sec : Mod String) (n1 : (sim.map (fun q => q.1)).Nodup)
    (n2 : (mach.map (fun q => q.1)).Nodup) (n3 : (sec.map (fun q => q.1)).Nodup) (c : Mod String)
    (hok : readParams combTbl sim mach sec = .ok c) :
    ∀ n ∈ cloudTbl.mandatory ++ cloudTbl.optNames, (attr c n).isSome = true := by
  intro n hn
  have hc := C79_tables n hn
  unfold readParams at hok
  split at hok
  · cases hok
  · cases h1 : updateModule sim mach with
    | error e => rw [h1] at hok; cases hok
    | ok m1 =>
      rw [h1] at hok
      cases h2 : updateModule m1 sec with
      | error e => simp only [bind, Except.bind, h2] at hok; cases hok
      | ok m2 =>
        simp only [bind, Except.bind, h2] at hok
        cases h3 : assertParams combTbl m2 with
        | error e => rw [h3] at hok; cases hok
        | ok u =>
          rw [h3] at hok
          simp only at hok
          have a4 := ((updateModule_spec mach sim n2).1 m1 h1).2.2.2
          have b4 := ((updateModule_spec sec m1 n3).1 m2 h2).2.2.2
          obtain ⟨c', hc', c1, c2, -⟩ := C57_values combTbl C57_tables.2.2.2.1 m2 (b4 (a4 n1)) (by rw [h3]) none
          rw [hc'] at hok
          have := Except.ok.inj hok
          subst this
          rcases List.mem_append.1 hc with hm | ho
          · obtain ⟨v, -, hv⟩ := c1 n hm
            rw [hv]; rfl
          · obtain ⟨q, hq, rfl⟩ := List.mem_map.1 ho
            rw [c2 q.1 q.2 hq]; rfl

theorem beforeSep_prefix (sep s : List Char) (hs : sep ≠ []) : beforeSep sep s = s ∨ ∃ r, s = beforeSep sep s ++ sep ++ r := by
  induction s with
  | nil => exact Or.inl rfl
  | cons c l ih =>
    unfold beforeSep
    by_cases h : sep.isPrefixOf (c :: l) = true
    · rw [if_pos h]
      right
      obtain ⟨r, hr⟩ := List.isPrefixOf_iff_prefix.1 h
      exact ⟨r, by rw [List.nil_append, hr]⟩
    · rw [if_neg h]
      rcases ih with ih | ⟨r, hr⟩
      · left; rw [ih]
      · right
        refine ⟨r, ?_⟩
        rw [List.cons_append, List.cons_append, ← hr]

/-- **C79**, with the restriction to different cloud names: clouds with different names write to different output files, none of
which is the main output file. -/
theorem C79_outputs_partial (main a b : List Char) : (cloudOut main a = cloudOut main b ↔ a = b) ∧ cloudOut main a ≠ main := by
  constructor
  · unfold cloudOut
    rw [List.append_left_inj, List.append_right_inj]
  · intro h
    unfold cloudOut at h
    have e1 : "_".toList = ['_'] := by decide +kernel
    have e2 : ".mat".toList = ['.', 'm', 'a', 't'] := by decide +kernel
    rw [e1, e2] at h
    rcases beforeSep_prefix ['.', 'm', 'a', 't'] main (by simp) with hb | ⟨r, hr⟩
    · rw [hb] at h
      have := congrArg List.length h
      simp at this
    · rw [List.append_assoc, List.append_assoc] at h
      nth_rw 2 [hr] at h
      rw [List.append_assoc] at h
      have := List.append_cancel_left h
      simp at this

/-- **C79**, for the default cloud: for all names of the main output and all cloud names in the main input (or none): two simulations
that differ in the cloud name write to different output files; the one without a name writes to the main output, and one with a name
to the same output as a cloud file of this name. -/
theorem C79_default_output (main : List Char) (a b : Option (List Char)) (p : List Char) :
    (defaultOut main a = defaultOut main b ↔ a = b) ∧ defaultOut main none = main ∧
      (a = some (cloudNameOf p) → defaultOut main a = cloudOut main (cloudNameOf p)) := by
  refine ⟨?_, rfl, fun h => by rw [h]; rfl⟩
  cases a with
  | none =>
    cases b with
    | none => simp
    | some n => exact ⟨fun h => absurd h.symm (C79_outputs_partial main n n).2, fun h => by simp at h⟩
  | some m =>
    cases b with
    | none => exact ⟨fun h => absurd h (C79_outputs_partial main m m).2, fun h => by simp at h⟩
    | some n =>
      rw [Option.some.injEq]
      exact (C79_outputs_partial main m n).1

example : String.ofList (defaultOut "out/Pyecltest.mat".toList (some "H2".toList)) = "out/Pyecltest_H2.mat" := by decide +kernel

example : String.ofList (cloudOut "Pyecltest.mat".toList (cloudNameOf "./ions/Ar.cloud".toList)) = "Pyecltest_Ar.mat" ∧
    String.ofList (cloudOut "Pyecltest.mat".toList (cloudNameOf "electrons.cloud".toList)) = "Pyecltest_electrons.mat" := by
  decide +kernel

/-- **C79** fails for two cloud files with one name in different folders, and for files told apart only by what follows
`.cloud`: both clouds write to one output file. -/
theorem C79_violated : ∃ p q : List Char, p ≠ q ∧
    ∀ main, cloudOut main (cloudNameOf p) = cloudOut main (cloudNameOf q) := by
  refine ⟨"set1/ions.cloud".toList, "set2/ions.cloud".toList, by decide +kernel, fun main => ?_⟩
  have : cloudNameOf "set1/ions.cloud".toList = cloudNameOf "set2/ions.cloud".toList := by decide +kernel
  rw [this]

/-! Concrete cases with the tables in use. -/

/-- as `exists_ok` -/
theorem exists_okC {α E : Type} {r : Except E α} {p : α → Prop} [DecidablePred p]
    (h : (match r with | .ok s => decide (p s) | .error _ => false) = true) : ∃ s, r = .ok s ∧ p s := by
  cases r with
  | error e => simp at h
  | ok s => exact ⟨s, rfl, by simpa using h⟩


/-- an input file giving the mandatory parameters of a table, and more -/
def fileOf (t : ParamTbl String) (more : Mod String) : Mod String := t.mandatory.map (fun n => (n, .val "given")) ++ more

/-- the beam file is accepted with its mandatory parameters, an optional one, `pi`, private names and imported modules; it is
refused with an unknown parameter, or without a mandatory one -/
example : assertParams beamTbl (fileOf beamTbl [("sigmaz", .val "1"), ("pi", .val "3"), ("_x", .val ""), ("np", .mod)]) = .ok () ∧
    assertParams beamTbl (fileOf beamTbl [("sigma_z", .val "1")]) = .error .config ∧
    assertParams beamTbl ((fileOf beamTbl []).drop 1) = .error .config := by decide +kernel

/-- reading three files: a parameter of the machine file, a default, and an overridden keyword -/
example : ∃ c, readParams combTbl (fileOf simTbl []) (fileOf machTbl [("x_aper", .val "2.")]) (fileOf secTbl []) = .ok c ∧
    (attr c "x_aper" = some (.val "2.") ∧ attr c "y_aper" = some (.val "None") ∧
      (overrideKw [] c [("y_aper", .val "5.")]).map (fun c' => attr c' "y_aper") = .ok (some (.val "5.")) ∧
      overrideKw [] c [("yaper", .val "5.")] = .error .config ∧
      (cloudConfig cloudTbl (some (fileOf cloudTbl [("N_mp_max", .val "7")])) c "out_ions.mat" "ions").map (fun c' =>
        [attr c' "N_mp_max", attr c' "del_max", attr c' "R0", attr c' "cloud_name"]) =
        .ok [some (.val "7"), attr c "del_max", attr c "R0", some (.val "ions")]) :=
  exists_okC (by decide +kernel)

/-- a parameter in two files is refused -/
example : readParams combTbl (fileOf simTbl [("x_aper", .val "1.")]) (fileOf machTbl [("x_aper", .val "2.")]) (fileOf secTbl []) =
    .error .config := by decide +kernel

end PyECLOUD
